import Verif.Props.TypeHash
import Verif.Props.Roundtrip

/-!
# What is known of every accepted file
-/

namespace Verif.Brass

open Verif Verif.Brass.Spec

theorem idxSeq_lt {ns : List Nat} {k : List UInt8} (h : IdxSeq ns k) : ∀ n ∈ ns, n < 2 ^ 31 := by
  induction h with
  | nil => simp
  | cons n ns k k' h1 _ ih =>
    intro m hm
    rcases List.mem_cons.1 hm with rfl | hm
    · exact Vals.idx_lt h1
    · exact ih m hm

namespace Vals

theorem debugItem (p : Profile) (nops : Nat) (d : Dbg) : Vals (debugItemG p nops d) (fun d' => d'.words.length = d.words.length ∨ d'.words.length = d.words.length + 2) := by
  unfold debugItemG
  refine bind (any _) fun b _ => ?_
  split
  · exact bind (any _) fun _ _ => bind (any _) fun _ _ => bind (any _) fun _ _ => pure (Or.inl rfl)
  split
  · exact bind (any _) fun _ _ => bind (any _) fun _ _ => pure (Or.inl rfl)
  split
  · exact bind (any _) fun _ _ => pure (Or.inr (by simp [Dbg.emit]))
  · exact bind (any _) fun _ _ => bind (any _) fun _ _ => pure (Or.inr (by simp [Dbg.emit]))

theorem debug (p : Profile) (nops : Nat) {d : Dbg} {c : Code} {k : List UInt8} {d' : Dbg} {c' : Code} (h : DebugG p nops d c k d' c') :
    d.words.length % 2 = 0 → d.words.length ≤ 2 * nops → d'.words.length = 2 * nops := by
  induction h with
  | done d c h => intro h1 h2; omega
  | item d d' d'' c c' c'' k k' h1 h2 h3 ih =>
    intro h4 h5
    have := debugItem p nops d _ _ _ _ h2
    exact ih (by omega) (by omega)

theorem functionDebug (p : Profile) (v nops : Nat) : Vals (functionDebugG p v nops) (fun w => w.length = 2 * nops) := by
  have h1 : Vals (debugInfosG p nops) (fun w => w.length = 2 * nops) := by
    refine bind (Q := fun d : Dbg => d.words.length = 2 * nops) ?_ fun d h => pure h
    intro c k d c' h
    exact debug p nops h rfl (Nat.zero_le _)
  refine bind h1 fun w hw => ?_
  split
  · exact bind (any _) fun _ _ => pure hw
  · exact pure hw

theorem idx_range {k : List UInt8} {v : Int} (h : IdxBytes k v) : IsI32 v := by
  unfold IsI32
  cases h with
  | short b h => omega
  | mediumPos b x h1 h2 => have := x.toNat_lt; omega
  | mediumNeg b x h1 h2 => have := x.toNat_lt; omega
  | long b x y z h =>
    have := b.toNat_lt; have := x.toNat_lt; have := y.toNat_lt; have := z.toNat_lt
    rw [twos32_eq, unsignedLE_eq]; simp only [leNat]
    unfold toSigned; split <;> omega

theorem idx : Vals idxG IsI32 := fun _ _ _ _ h => idx_range h.2
theorem natI : Vals natIG IsI32 := bind nat fun n h => pure ⟨by omega, by omega⟩
theorem byte : Vals byteG (fun n => n < 256) := by
  rintro c k n c' ⟨_, b, rfl, rfl⟩; exact b.toNat_lt

theorem extra {g : G Int} (h : Vals g IsI32) (n : Nat) : Vals (extraG g n) (fun l => l.length = 2 * n ∧ ∀ x ∈ l, IsI32 x) :=
  bind (many h n) fun l hl => pure ⟨by simp [hl.1]; omega, fun x hx => by
    rcases List.mem_append.1 hx with hx | hx
    · exact hl.2 x hx
    · rw [List.eq_of_mem_replicate hx]; exact ⟨by omega, by omega⟩⟩

theorem callLike {op : Op} (h : hlShape op = .call) : Vals (callLikeG (bare op)) WellFormedOp :=
  bind idx fun p1 a1 => bind idx fun p2 a2 => bind byte fun p3 a3 => bind (extra idx _) fun l a4 => pure ⟨a4.2, by
    rw [show hlShape (bare op).op = _ from h]
    exact ⟨⟨_, rfl, a1⟩, ⟨_, rfl, a2⟩, p3, a3, rfl, a4.1⟩⟩

theorem switch {op : Op} (h : hlShape op = .switch) : Vals (switchG (bare op)) WellFormedOp :=
  bind natI fun p1 a1 => bind nat fun p2 a2 => bind (extra natI _) fun l a3 => bind natI fun p3 a4 => pure ⟨a3.2, by
    rw [show hlShape (bare op).op = _ from h]
    exact ⟨⟨_, rfl, a1⟩, ⟨p2, a2, rfl, a3.1⟩, ⟨_, rfl, a4⟩⟩⟩

theorem fixed {op : Op} {n : Nat} (h : hlShape op = .args n) : Vals (operandsG (bare op) (n : Int)) WellFormedOp := by
  have z : ∀ x ∈ (bare op).extra, IsI32 x := by simp [bare]
  unfold operandsG
  match n, h with
  | 0, h =>
    exact pure ⟨z, by rw [show hlShape (bare op).op = _ from h]; exact ⟨rfl, rfl, rfl, rfl⟩⟩
  | 1, h =>
    exact bind idx fun p1 a1 => pure ⟨z, by rw [show hlShape (bare op).op = _ from h]; exact ⟨⟨_, rfl, a1⟩, rfl, rfl, rfl⟩⟩
  | 2, h =>
    exact bind idx fun p1 a1 => bind idx fun p2 a2 => pure ⟨z, by rw [show hlShape (bare op).op = _ from h]; exact ⟨⟨_, rfl, a1⟩, ⟨_, rfl, a2⟩, rfl, rfl⟩⟩
  | 3, h =>
    exact bind idx fun p1 a1 => bind idx fun p2 a2 => bind idx fun p3 a3 =>
      pure ⟨z, by rw [show hlShape (bare op).op = _ from h]; exact ⟨⟨_, rfl, a1⟩, ⟨_, rfl, a2⟩, ⟨_, rfl, a3⟩, rfl⟩⟩
  | 4, h =>
    exact bind idx fun p1 a1 => bind idx fun p2 a2 => bind idx fun p3 a3 => bind idx fun p4 a4 =>
      pure ⟨by simp [bare, a4], by rw [show hlShape (bare op).op = _ from h]; exact ⟨⟨_, rfl, a1⟩, ⟨_, rfl, a2⟩, ⟨_, rfl, a3⟩, rfl⟩⟩
  | n + 5, h =>
    rw [if_neg (by omega), if_neg (by omega), if_neg (by omega), if_neg (by omega), if_neg (by omega), if_neg (by omega)]
    exact bind idx fun p1 a1 => bind idx fun p2 a2 => bind idx fun p3 a3 => bind (any _) fun _ _ =>
      bind (extra idx _) fun l a4 => pure ⟨a4.2, by
        rw [show hlShape (bare op).op = _ from h]
        refine ⟨⟨_, rfl, a1⟩, ⟨_, rfl, a2⟩, ⟨_, rfl, a3⟩, ?_⟩
        rw [a4.1]; omega⟩

theorem opcode : Vals opcodeG WellFormedOp := by
  unfold opcodeG
  refine bind (any _) fun n _ => bind (any _) fun _ _ => bind (any _) fun op _ => ?_
  cases h : hlShape op with
  | args n => exact fixed h
  | call =>
    have : operandsG (bare op) Shape.call.arity = callLikeG (bare op) := by
      cases op <;> first | contradiction | rfl
    rw [this]; exact callLike h
  | switch =>
    have : operandsG (bare op) Shape.switch.arity = switchG (bare op) := by
      cases op <;> first | contradiction | rfl
    rw [this]; exact switch h

theorem function : Vals functionG (fun f => f.regs.length = f.nregs ∧ (f.ops.length = f.nops ∧ ∀ o ∈ f.ops, WellFormedOp o) ∧ f.rf = 0 ∧ f.obj = none ∧ f.field = none ∧ f.debug = [] ∧ f.findex < 2 ^ 31) :=
  bind (any _) fun _ _ => bind nat fun _ h0 => bind (any _) fun _ _ => bind (any _) fun _ _ => bind (length _ _) fun _ h1 => bind (many opcode _) fun _ h2 =>
    pure ⟨h1, h2, rfl, rfl, rfl, rfl, h0⟩

theorem functionWithDebug (p : Profile) (c : Code) : Vals (functionWithDebugG p c) (WellFormedFun c.hasdebug) := by
  refine bind function fun f ⟨h1, h2, h3, h4, h5, h6, h7⟩ => ?_
  by_cases h : c.hasdebug = 0
  · rw [if_neg (by simpa using h)]
    exact pure ⟨h1, h2.1, h2.2, by simp [h, h6], h3, h4, h5, h7⟩
  · rw [if_pos h]
    exact bind (functionDebug _ _ _) fun w hw => pure ⟨h1, h2.1, h2.2, by simp [h, hw], h3, h4, h5, h7⟩

theorem constant : Vals constantG (fun k => k.fields.length = k.nfields) :=
  bind (any _) fun _ _ => bind (any _) fun _ _ => bind (length _ _) fun _ h => pure h

end Vals

/-- The operands of a decoded instruction are 32-bit numbers. -/
theorem WellFormedOp.range {o : Opcode} (h : WellFormedOp o) (x : Int) (hx : o.p1 = some x ∨ o.p2 = some x ∨ o.p3 = some x) : IsI32 x := by
  obtain ⟨_, h⟩ := h
  have key : ∀ {p : Option Int}, IsOperand p → p = some x → IsI32 x := by
    rintro p ⟨y, rfl, hy⟩ e; cases e; exact hy
  have nope : ∀ {p : Option Int}, p = none → p = some x → IsI32 x := by
    rintro p rfl e; cases e
  have small : ∀ {p : Option Int} {k : Nat}, k < 2 ^ 31 → p = some (k : Int) → p = some x → IsI32 x := by
    rintro p k hk rfl e; cases e; exact ⟨by omega, by omega⟩
  split at h
  · exact hx.elim (nope h.1) (·.elim (nope h.2.1) (nope h.2.2.1))
  · exact hx.elim (key h.1) (·.elim (nope h.2.1) (nope h.2.2.1))
  · exact hx.elim (key h.1) (·.elim (key h.2.1) (nope h.2.2.1))
  · exact hx.elim (key h.1) (·.elim (key h.2.1) (key h.2.2.1))
  · exact hx.elim (key h.1) (·.elim (key h.2.1) (key h.2.2.1))
  · exact hx.elim (key h.1) (·.elim (key h.2.1) (key h.2.2.1))
  · obtain ⟨h1, h2, k, h3, h4, _⟩ := h
    exact hx.elim (key h1) (·.elim (key h2) (small (by omega) h4))
  · obtain ⟨h1, ⟨k, h3, h4, _⟩, h2⟩ := h
    exact hx.elim (key h1) (·.elim (small h3 h4) (key h2))

theorem functions_ok {p : Profile} {D : Nat} : ∀ (n a : Nat) (b c : Code) (k : List UInt8) (b' c' : Code), b.hasdebug = D →
    (∀ f ∈ b.functions, WellFormedFun D f) → G.loop (functionsStepG p) a n b c k b' c' → ∀ f ∈ b'.functions, WellFormedFun D f
  | 0, _, b, c, k, b', c', _, h, ⟨_, e, _⟩ => by subst e; exact h
  | n + 1, a, b, c, k, b', c', hb, h, ⟨k1, k2, b1, c1, hk, h1, h2⟩ => by
    obtain ⟨_, _, _, c2, _, ⟨_, hs⟩, ka, kb, f, c3, _, hf, _, _, _, _, _, _, _, rfl, rfl⟩ := h1
    subst hs
    have hf' := Vals.functionWithDebug p _ _ _ _ _ hf
    refine functions_ok n (a + 1) _ c1 k2 b' c' ?_ ?_ h2
    · exact hb
    · intro y hy
      rcases List.mem_append.1 hy with hy | hy
      · exact h y hy
      · rw [List.mem_singleton.1 hy]
        have e : c2.hasdebug = D := hb
        rw [← e]; exact hf'

theorem constants_ok : ∀ (n a : Nat) (b c : Code) (k : List UInt8) (b' c' : Code),
    (∀ x ∈ b.constants, x.fields.length = x.nfields) → G.loop constantsStepG a n b c k b' c' → ∀ x ∈ b'.constants, x.fields.length = x.nfields
  | 0, _, b, c, k, b', c', h, ⟨_, e, _⟩ => by subst e; exact h
  | n + 1, a, b, c, k, b', c', h, ⟨k1, k2, b1, c1, hk, h1, h2⟩ => by
    obtain ⟨ka, kb, f, c3, _, hf, _, _, _, _, _, ⟨_, hg, _⟩, _, _, _, _, _, _, _, rfl, rfl⟩ := h1
    have hf' := Vals.constant _ _ _ _ hf
    refine constants_ok n (a + 1) _ c1 k2 b' c' ?_ h2
    intro y hy
    rcases (List.mem_insertIdx (by assumption)).1 hy with hy | hy
    · rw [hy]; exact hf'
    · exact h y hy

/-- What is known of the result of every successful `Code::read`. -/
structure Loaded (c : Code) : Prop where
  types : ∃ T, T.length = c.ntypes ∧ c.types = T ++ List.replicate c.ntypes ValueType.default
  typesOk : ∀ i t, i < c.ntypes → c.types[i]? = some t → WellFormed t
  typesRefer : ∀ i t, i < c.ntypes → c.types[i]? = some t → ∀ r ∈ t.refs, r = ValueType.default ∨ ∃ j : Nat, j < i ∧ c.types[j]? = some r
  globals : ∃ G, G.length = c.nglobals ∧ c.globals = G ++ List.replicate c.nglobals ValueType.default
  globalsRefer : ∀ i g, i < c.nglobals → c.globals[i]? = some g → c.IsType g
  natives : c.natives.length = c.nnatives
  nativesRefer : ∀ n ∈ c.natives, c.IsType n.t
  functions : c.functions.length = c.nfunctions
  functionsRefer : ∀ f ∈ c.functions, c.IsType f.t ∧ ∀ r ∈ f.regs, c.IsType r
  functionsOk : ∀ f ∈ c.functions, WellFormedFun c.hasdebug f
  constants : c.constants.length = c.nconstants
  constantsOk : ∀ k ∈ c.constants, k.fields.length = k.nfields
  ints : c.ints.length < 2 ^ 31
  nglobals : c.nglobals < 2 ^ 31
  nfunctions : c.nfunctions < 2 ^ 31
  nnatives : c.nnatives < 2 ^ 31

theorem loaded {p : Profile} {e : Option DecodeError} {buf : List UInt8} {c : Code} {s : St} (h : Code.read p e buf = .ok c s) : Loaded c := by
  obtain ⟨hn, hf, hc, hT, hG⟩ := c37_table_lengths p e buf c s h
  obtain ⟨hg, hnt, hft⟩ := c36_uses_resolve p e buf c s h
  have hty := c36_types_refer_back p e buf c s h
  have hwf := c60_types_well_formed p e buf c s h
  obtain ⟨hd, kh, rest, rfl, hh⟩ := c44_has_header p e buf c s h
  have hw : ∀ n ∈ hd.words, n < 2 ^ 31 := by obtain ⟨_, _, _, _, _, _, h⟩ := hh; exact idxSeq_lt h
  have hp := c32_pools p e hd kh rest c s h hh
  have hr := c44_header_reported p e hd kh rest c s h hh
  obtain ⟨k, S, rfl, _, _⟩ := sections_of_read h hh
  have hlast : (∀ f ∈ c.functions, WellFormedFun c.hasdebug f) ∧ (∀ k ∈ c.constants, k.fields.length = k.nfields) ∧ c.ints.length < 2 ^ 31 ∧ c.nglobals < 2 ^ 31 ∧
      c.nfunctions < 2 ^ 31 ∧ c.nnatives < 2 ^ 31 := by
    by_cases hb : S.h.Bare
    · rw [S.code.2 hb]; exact ⟨by simp [Code.new], by simp [Code.new], by simp [Code.new], by simp [Code.new], by simp [Code.new], by simp [Code.new]⟩
    have ec := S.code.1 hb
    obtain ⟨_, e7⟩ := S.val7
    obtain ⟨_, e8⟩ := S.val8
    have f8 : c.functions = S.c7.functions := by rw [congrArg Code.functions ec, congrArg Code.functions e8]
    have d8 : c.hasdebug = S.c6.hasdebug := by rw [congrArg Code.hasdebug ec, congrArg Code.hasdebug e8, congrArg Code.hasdebug e7]
    have k8 : c.constants = S.c8.constants := by rw [congrArg Code.constants ec]
    refine ⟨?_, ?_, ?_, ?_, ?_, ?_⟩
    · rw [f8, d8]
      exact functions_ok _ 0 _ _ _ _ _ rfl (by rw [S.same6.2.1]; simp) S.functions
    · rw [k8]
      exact constants_ok _ 0 _ _ _ _ _ (by rw [S.same7.2]; simp) S.constants
    · rw [(hp hb).1]
      exact hw _ (by simp [Header.words])
    · rw [(hr.1 hb).2.2.2.2.2.2.2.2.1]
      exact hw _ (by simp [Header.words])
    · rw [(hr.1 hb).2.2.2.2.2.2.2.2.2.2.1]
      exact hw _ (by simp [Header.words])
    · rw [(hr.1 hb).2.2.2.2.2.2.2.2.2.1]
      exact hw _ (by simp [Header.words])
  exact ⟨hT, fun i t hi => hwf i hi t, fun i t hi ht => hty i hi t ht, hG, hg, hn, hnt, hf, hft, hlast.1, hc, hlast.2.1, hlast.2.2.1, hlast.2.2.2.1, hlast.2.2.2.2.1, hlast.2.2.2.2.2⟩

end Verif.Brass
