import Verif.Props.Roundtrip
import Verif.Props.Lookup
import Verif.Brass.TextLemmas
import Verif.Spec.Same
import Verif.Brass.Right

/-!
# C98: modules that differ decode differently
-/

namespace Verif.Brass

open Verif Verif.Brass.Spec

theorem map_inj_on {α β : Type} {f g : α → β} : ∀ {l l' : List α}, (∀ a ∈ l, ∀ b ∈ l', f a = g b → a = b) → l.map f = l'.map g → l = l'
  | [], [], _, _ => rfl
  | [], b :: l', _, h => by simp at h
  | a :: l, [], _, h => by simp at h
  | a :: l, b :: l', hf, h => by
    simp only [List.map_cons, List.cons.injEq] at h
    rw [hf a (by simp) b (by simp) h.1,
      map_inj_on (fun a ha b hb => hf a (List.mem_cons_of_mem _ ha) b (List.mem_cons_of_mem _ hb)) h.2]

theorem nodup_get_inj {α : Type} : ∀ {l : List α}, l.Nodup → ∀ {i j : Nat} {a : α}, l[i]? = some a → l[j]? = some a → i = j
  | [], _, i, j, a, hi, _ => by simp at hi
  | b :: l, hn, i, j, a, hi, hj => by
    rw [List.nodup_cons] at hn
    cases i with
    | zero =>
      cases j with
      | zero => rfl
      | succ j =>
        simp at hi hj
        exact absurd (hi ▸ List.mem_of_getElem? hj) hn.1
    | succ i =>
      cases j with
      | zero =>
        simp at hi hj
        exact absurd (hj ▸ List.mem_of_getElem? hi) hn.1
      | succ j =>
        simp at hi hj
        rw [nodup_get_inj hn.2 hi hj]

theorem tref_inj {prev : List ValueType} (hn : prev.Nodup) {i j : Nat} (hi : i < prev.length) (hj : j < prev.length)
    (h : tref prev i = tref prev j) : i = j := by
  unfold tref at h
  rw [List.getElem?_eq_getElem hi, List.getElem?_eq_getElem hj] at h
  simp only [Option.getD_some] at h
  exact nodup_get_inj hn (List.getElem?_eq_getElem hi) (by rw [List.getElem?_eq_getElem hj, h])

theorem sref_inj {strs : List Text} (hn : strs.Nodup) {i j : Nat} (hi : i < strs.length) (hj : j < strs.length)
    (h : sref strs i = sref strs j) : i = j := by
  unfold sref at h
  have h := utf8_inj h
  rw [List.getElem?_eq_getElem hi, List.getElem?_eq_getElem hj] at h
  simp only [Option.getD_some] at h
  exact nodup_get_inj hn (List.getElem?_eq_getElem hi) (by rw [List.getElem?_eq_getElem hj, h])

theorem pairs_inj : ∀ {l l' : List (Nat × Nat)}, (l.flatMap fun b => [b.1, b.2]) = (l'.flatMap fun b => [b.1, b.2]) → l = l'
  | [], [], _ => rfl
  | [], b :: l', h => by simp at h
  | b :: l, [], h => by simp at h
  | (a, b) :: l, (a', b') :: l', h => by
    simp at h
    obtain ⟨rfl, rfl, h⟩ := h
    exact congrArg _ (pairs_inj h)

theorem pairsI_inj : ∀ {l l' : List (Int × Int)}, (l.flatMap fun b => [b.1, b.2]) = (l'.flatMap fun b => [b.1, b.2]) → l = l'
  | [], [], _ => rfl
  | [], b :: l', h => by simp at h
  | b :: l, [], h => by simp at h
  | (a, b) :: l, (a', b') :: l', h => by
    simp at h
    obtain ⟨rfl, rfl, h⟩ := h
    exact congrArg _ (pairsI_inj h)

/-- A decoded type is not the default type. -/
theorem decoded_ne_noType (strs : List Text) (prev : List ValueType) (t : RType) (hs : t.Small) : t.decoded strs prev ≠ noType := by
  cases t with
  | prim k =>
    intro h
    have h : k = .HNULL := congrArg ValueType.kind h
    subst h
    revert hs
    simp only [RType.Small]
    decide
  | func a b c => intro h; cases congrArg ValueType.union h
  | obj a b c d e f g => intro h; cases congrArg ValueType.union h
  | virt a => intro h; cases congrArg ValueType.union h
  | enum a b c => intro h; cases congrArg ValueType.union h
  | abstract a => intro h; cases congrArg ValueType.absName h
  | ref a => intro h; cases congrArg ValueType.tparam h
  | null a => intro h; cases congrArg ValueType.tparam h
  | packed a => intro h; cases congrArg ValueType.tparam h

section
variable {strs : List Text} {prev : List ValueType} (hs : strs.Nodup) (hp : prev.Nodup)
include hs hp

theorem fields_inj {l l' : List RField} (h1 : ∀ f ∈ l, f.name < strs.length ∧ f.type < prev.length)
    (h2 : ∀ f ∈ l', f.name < strs.length ∧ f.type < prev.length)
    (h : l.map (RField.decoded strs prev) = l'.map (RField.decoded strs prev)) : l = l' := by
  refine map_inj_on (fun a ha b hb e => ?_) h
  have e1 := sref_inj hs (h1 a ha).1 (h2 b hb).1 (congrArg ObjField.name e)
  have e2 := tref_inj hp (h1 a ha).2 (h2 b hb).2 (congrArg ObjField.t e)
  cases a; cases b; simp_all

omit hp in
theorem protos_inj {l l' : List RProto} (h1 : ∀ f ∈ l, f.name < strs.length)
    (h2 : ∀ f ∈ l', f.name < strs.length)
    (h : l.map (RProto.decoded strs) = l'.map (RProto.decoded strs)) : l = l' := by
  refine map_inj_on (fun a ha b hb e => ?_) h
  have e1 := sref_inj hs (h1 a ha) (h2 b hb) (congrArg ObjProto.name e)
  have e2 := congrArg ObjProto.findex e
  have e3 := congrArg ObjProto.pindex e
  cases a; cases b; simp_all [RProto.decoded]

omit hs in
theorem trefs_inj {l l' : List Nat} (h1 : ∀ j ∈ l, j < prev.length) (h2 : ∀ j ∈ l', j < prev.length)
    (h : l.map (tref prev) = l'.map (tref prev)) : l = l' :=
  map_inj_on (fun a ha b hb e => tref_inj hp (h1 a ha) (h2 b hb) e) h

theorem constructs_inj {l l' : List RConstruct} (h1 : ∀ f ∈ l, f.name < strs.length ∧ ∀ j ∈ f.params, j < prev.length)
    (h2 : ∀ f ∈ l', f.name < strs.length ∧ ∀ j ∈ f.params, j < prev.length)
    (h : l.map (RConstruct.decoded strs prev) = l'.map (RConstruct.decoded strs prev)) : l = l' := by
  refine map_inj_on (fun a ha b hb e => ?_) h
  have e1 := sref_inj hs (h1 a ha).1 (h2 b hb).1 (congrArg EnumConstruct.name e)
  have e2 := trefs_inj hp (h1 a ha).2 (h2 b hb).2 (congrArg EnumConstruct.params e)
  cases a; cases b; simp_all

end

theorem prim_kind {k : TypeKind} {t : RType} (hk : k ∈ primKinds) (h : t.kind = k) : ∃ k', t = .prim k' := by
  cases t with
  | prim k' => exact ⟨k', rfl⟩
  | func m a b => cases m <;> (simp only [RType.kind] at h; subst h; exact absurd hk (by decide))
  | obj s a b c d e f => cases s <;> (simp only [RType.kind] at h; subst h; exact absurd hk (by decide))
  | _ => simp only [RType.kind] at h; subst h; exact absurd hk (by decide)

/-- A type can be found again. -/
theorem type_inj {strs : List Text} {prev : List ValueType} (hs : strs.Nodup) (hp : prev.Nodup) (h0 : noType ∉ prev)
    {t t' : RType} (ht : t.Small ∧ (∀ j ∈ t.refs, j < prev.length) ∧ ∀ j ∈ t.names, j < strs.length)
    (ht' : t'.Small ∧ (∀ j ∈ t'.refs, j < prev.length) ∧ ∀ j ∈ t'.names, j < strs.length)
    (h : t.decoded strs prev = t'.decoded strs prev) : t = t' := by
  have hk : t.kind = t'.kind := by
    have e : ∀ t : RType, (t.decoded strs prev).kind = t.kind := fun t => by cases t <;> rfl
    rw [← e t, ← e t', h]
  obtain ⟨s1, r1, n1⟩ := ht
  obtain ⟨s2, r2, n2⟩ := ht'
  have hu := congrArg ValueType.union h
  have ha := congrArg ValueType.absName h
  have hp' := congrArg ValueType.tparam h
  cases t with
  | prim k =>
    obtain ⟨k', rfl⟩ := prim_kind (t := t') (k := k) s1 hk.symm
    rw [show k = k' from hk]
  | func m args ret =>
    cases t' with
    | func m' args' ret' =>
      simp only [RType.decoded, ofKind, ValueTypeU.func.injEq] at hu
      simp only [RType.refs, List.mem_append, List.mem_singleton] at r1 r2
      have e1 := trefs_inj hp (fun j hj => r1 j (.inl hj)) (fun j hj => r2 j (.inl hj)) hu.1
      have e2 := tref_inj hp (r1 _ (.inr rfl)) (r2 _ (.inr rfl)) hu.2.2
      have e3 : m = m' := by cases m <;> cases m' <;> simp_all [RType.kind]
      rw [e1, e2, e3]
    | _ => cases hu
  | obj s name super global fields protos bindings =>
    cases t' with
    | obj s' name' super' global' fields' protos' bindings' =>
      simp only [RType.decoded, ofKind, ValueTypeU.obj.injEq, List.cons.injEq] at hu
      simp only [RType.refs, List.mem_append, List.mem_map, Option.mem_toList] at r1 r2
      simp only [RType.names, List.mem_append, List.mem_map, List.mem_cons] at n1 n2
      have e1 := sref_inj hs (n1 _ (.inl rfl)) (n2 _ (.inl rfl)) hu.1
      have e2 : super = super' := by
        have hu := hu.2.1
        cases super with
        | none =>
          cases super' with
          | none => rfl
          | some j =>
            have hj := r2 j (.inl rfl)
            simp only [superRef, tref, List.getElem?_eq_getElem hj, Option.getD_some] at hu
            exact absurd (hu ▸ List.getElem_mem hj) h0
        | some i =>
          cases super' with
          | none =>
            have hj := r1 i (.inl rfl)
            simp only [superRef, tref, List.getElem?_eq_getElem hj, Option.getD_some] at hu
            exact absurd (hu ▸ List.getElem_mem hj) h0
          | some j => rw [tref_inj hp (r1 i (.inl rfl)) (r2 j (.inl rfl)) hu]
      have e3 := fields_inj hs hp (fun f hf => ⟨n1 _ (.inr (.inl ⟨f, hf, rfl⟩)), r1 _ (.inr ⟨f, hf, rfl⟩)⟩)
        (fun f hf => ⟨n2 _ (.inr (.inl ⟨f, hf, rfl⟩)), r2 _ (.inr ⟨f, hf, rfl⟩)⟩) hu.2.2.1
      have e4 := protos_inj hs (fun f hf => n1 _ (.inr (.inr ⟨f, hf, rfl⟩))) (fun f hf => n2 _ (.inr (.inr ⟨f, hf, rfl⟩))) hu.2.2.2.2.2.2.1
      have e5 := pairs_inj hu.2.2.2.2.2.2.2.1
      have e6 : s = s' := by cases s <;> cases s' <;> simp_all [RType.kind]
      have e7 : global = global' := by have := hu.2.2.2.2.2.2.2.2.1.1; omega
      rw [e1, e2, e3, e4, e5, e6, e7]
    | _ => cases hu
  | virt fields =>
    cases t' with
    | virt fields' =>
      simp only [RType.decoded, ofKind, ValueTypeU.virt.injEq] at hu
      simp only [RType.refs, List.mem_map] at r1 r2
      simp only [RType.names, List.mem_map] at n1 n2
      rw [fields_inj hs hp (fun f hf => ⟨n1 _ ⟨f, hf, rfl⟩, r1 _ ⟨f, hf, rfl⟩⟩) (fun f hf => ⟨n2 _ ⟨f, hf, rfl⟩, r2 _ ⟨f, hf, rfl⟩⟩) hu.2]
    | _ => cases hu
  | enum name global constructs =>
    cases t' with
    | enum name' global' constructs' =>
      simp only [RType.decoded, ofKind, ValueTypeU.enum.injEq, List.cons.injEq] at hu
      simp only [RType.refs, List.mem_flatMap] at r1 r2
      simp only [RType.names, List.mem_map, List.mem_cons] at n1 n2
      have e1 := sref_inj hs (n1 _ (.inl rfl)) (n2 _ (.inl rfl)) hu.1
      have e2 := constructs_inj hs hp (fun f hf => ⟨n1 _ (.inr ⟨f, hf, rfl⟩), fun j hj => r1 _ ⟨f, hf, hj⟩⟩)
        (fun f hf => ⟨n2 _ (.inr ⟨f, hf, rfl⟩), fun j hj => r2 _ ⟨f, hf, hj⟩⟩) hu.2.2.1
      have e3 : global = global' := by have := hu.2.2.2.1; omega
      rw [e1, e2, e3]
    | _ => cases hu
  | abstract name =>
    cases t' with
    | abstract name' =>
      simp only [RType.decoded, ofKind, Option.some.injEq] at ha
      rw [sref_inj hs (n1 _ (by simp [RType.names])) (n2 _ (by simp [RType.names])) ha]
    | _ => cases ha
  | ref j =>
    cases t' with
    | ref j' =>
      simp only [RType.decoded, ofKind, Option.some.injEq] at hp'
      rw [tref_inj hp (r1 _ (by simp [RType.refs])) (r2 _ (by simp [RType.refs])) hp']
    | null j' => cases hk
    | packed j' => cases hk
    | _ => cases hp'
  | null j =>
    cases t' with
    | null j' =>
      simp only [RType.decoded, ofKind, Option.some.injEq] at hp'
      rw [tref_inj hp (r1 _ (by simp [RType.refs])) (r2 _ (by simp [RType.refs])) hp']
    | ref j' => cases hk
    | packed j' => cases hk
    | _ => cases hp'
  | packed j =>
    cases t' with
    | packed j' =>
      simp only [RType.decoded, ofKind, Option.some.injEq] at hp'
      rw [tref_inj hp (r1 _ (by simp [RType.refs])) (r2 _ (by simp [RType.refs])) hp']
    | ref j' => cases hk
    | null j' => cases hk
    | _ => cases hp'

theorem typeTable_length (m : RModule) : m.typeTable.length = m.types.length := by
  rw [RModule.typeTable, decodeTypes_length]; simp

/-- The types can be found again. -/
theorem types_inj {m m' : RModule} (hm : m.Right) (hm' : m'.Right) (hd : m.Distinct) (hd' : m'.Distinct)
    (hs : m.strings = m'.strings) (ht : m.typeTable = m'.typeTable) : m.types = m'.types := by
  have hl : m.types.length = m'.types.length := by rw [← typeTable_length, ← typeTable_length, ht]
  refine List.ext_getElem? fun i => ?_
  by_cases hi : i < m.types.length
  · have hi' : i < m'.types.length := by omega
    have g1 := List.getElem?_eq_getElem hi
    have g2 := List.getElem?_eq_getElem hi'
    have d1 := decodeTypes_get m.strings m.types [] i _ g1
    have d2 := decodeTypes_get m'.strings m'.types [] i _ g2
    simp only [List.length_nil, Nat.zero_add] at d1 d2
    change m.typeTable[i]? = _ at d1
    change m'.typeTable[i]? = _ at d2
    change _ = some ((m.types[i]).decoded m.strings (m.typeTable.take i)) at d1
    change _ = some ((m'.types[i]).decoded m'.strings (m'.typeTable.take i)) at d2
    rw [← ht, d1, ← hs] at d2
    have e := Option.some.inj d2
    have hlen : (m.typeTable.take i).length = i := by rw [List.length_take, typeTable_length]; omega
    have hno : noType ∉ m.typeTable.take i := by
      intro hx
      obtain ⟨k, hk, hx⟩ := List.mem_iff_getElem.mp (List.mem_of_mem_take hx)
      rw [typeTable_length] at hk
      have d3 := decodeTypes_get m.strings m.types [] k _ (List.getElem?_eq_getElem hk)
      simp only [List.length_nil, Nat.zero_add] at d3
      change m.typeTable[k]? = some _ at d3
      rw [List.getElem?_eq_getElem (by rw [typeTable_length]; exact hk), hx] at d3
      exact decoded_ne_noType _ _ _ (hm.types _ (List.getElem_mem hk)).1 (Option.some.inj d3).symm
    have := type_inj (t := m.types[i]) (t' := m'.types[i]) hd.strings (hd.types.sublist (List.take_sublist _ _)) hno
      ⟨(hm.types _ (List.getElem_mem hi)).1, fun j hj => by rw [hlen]; exact hd.backward i _ g1 j hj, (hm.types _ (List.getElem_mem hi)).2.2⟩
      ⟨(hm'.types _ (List.getElem_mem hi')).1, fun j hj => by rw [hlen]; exact hd'.backward i _ g2 j hj, hs ▸ (hm'.types _ (List.getElem_mem hi')).2.2⟩
      e
    rw [g1, g2, this]
  · rw [List.getElem?_eq_none (by omega), List.getElem?_eq_none (by omega)]

/-- What two modules have in common if they decode to the same code. -/
theorem same_of_decoded {m m' : RModule} (hm : m.Right) (hm' : m'.Right) (hd : m.Distinct) (hd' : m'.Distinct)
    (h : m.decoded = m'.decoded) : m.Same m' := by
  have hdbg : m.hasDebug = m'.hasDebug := by
    have := congrArg Code.hasdebug h
    simp only [RModule.decoded] at this
    cases h1 : m.hasDebug <;> cases h2 : m'.hasDebug <;> simp [h1, h2] at this <;> rfl
  have hstr : m.strings = m'.strings := map_inj_on (fun a _ b _ e => utf8_inj e) (congrArg Code.strings h)
  have hnt : m.types.length = m'.types.length := congrArg Code.ntypes h
  have hng : m.globals.length = m'.globals.length := congrArg Code.nglobals h
  have htt : m.typeTable = m'.typeTable := by
    have := congrArg Code.types h
    exact (List.append_inj this (by rw [typeTable_length, typeTable_length, hnt])).1
  have hty := types_inj hm hm' hd hd' hstr htt
  have hlt := typeTable_length m
  have hgl : m.globals = m'.globals := by
    have := congrArg Code.globals h
    have := (List.append_inj this (by simp [hng])).1
    rw [← htt] at this
    exact trefs_inj hd.types (fun j hj => by rw [hlt]; exact hm.globals j hj) (fun j hj => by rw [hlt, hnt]; exact hm'.globals j hj) this
  have hna : m.natives = m'.natives := by
    refine map_inj_on (fun a ha b hb e => ?_) (congrArg Code.natives h)
    obtain ⟨a1, a2, a3, a4⟩ := hm.natives a ha
    obtain ⟨b1, b2, b3, b4⟩ := hm'.natives b hb
    have e1 := congrArg Native.lib e
    have e2 := congrArg Native.name e
    have e3 := congrArg Native.t e
    have e4 := congrArg Native.findex e
    simp only [RNative.decoded] at e1 e2 e3 e4
    rw [← hstr] at e1 e2
    rw [← htt] at e3
    have e1 := sref_inj hd.strings a1 (hstr ▸ b1) e1
    have e2 := sref_inj hd.strings a2 (hstr ▸ b2) e2
    have e3 := tref_inj hd.types (by omega) (by omega) e3
    cases a; cases b; simp_all
  have hco : m.constants = m'.constants := by
    refine map_inj_on (fun a ha b hb e => ?_) (congrArg Code.constants h)
    have e1 := congrArg Constant.global e
    have e2 := congrArg Constant.fields e
    cases a; cases b; simp_all [RConstant.decoded]
  refine ⟨congrArg Code.version h, hdbg, congrArg Code.entrypoint h, congrArg Code.ints h, congrArg Code.floats h, hstr,
    congrArg Code.bytes h, congrArg Code.bytesPos h, map_inj_on (fun a _ b _ e => utf8_inj e) (congrArg Code.debugfiles h), hty, hgl, hna,
    congrArg Code.nfunctions h, fun i f f' hf hf' => ?_, hco⟩
  have e : RFunction.decoded m f = RFunction.decoded m' f' := by
    have := congrArg (fun l => l[i]?) (congrArg Code.functions h)
    simpa [RModule.decoded, hf, hf'] using this
  have g := hm.functions f (List.mem_of_getElem? hf)
  have g' := hm'.functions f' (List.mem_of_getElem? hf')
  have e1 := congrArg HLFunction.t e
  have e2 := congrArg HLFunction.regs e
  have e3 := congrArg HLFunction.ops e
  have e4 := congrArg HLFunction.debug e
  simp only [RFunction.decoded] at e1 e2 e3 e4
  rw [← htt] at e1 e2
  refine ⟨tref_inj hd.types (by rw [hlt]; exact g.type) (by rw [hlt, hnt]; exact g'.type) e1, congrArg HLFunction.findex e,
    trefs_inj hd.types (fun j hj => by rw [hlt]; exact g.regs j hj) (fun j hj => by rw [hlt, hnt]; exact g'.regs j hj) e2,
    map_inj_on (fun a ha b hb e => ?_) e3, fun hb => ?_⟩
  · rw [← instrOf_decoded a (g.ops a ha), ← instrOf_decoded b (g'.ops b hb), e]
  · rw [hb, ← hdbg, hb] at e4
    exact pairsI_inj (by simpa using e4)

/-- Modules that are the same decode to the same code. -/
theorem decoded_of_same {m m' : RModule} (h : m.Same m') : m.decoded = m'.decoded := by
  have htt : m.typeTable = m'.typeTable := by rw [RModule.typeTable, RModule.typeTable, h.strings, h.types]
  have hf : m.functions.map (RFunction.decoded m) = m'.functions.map (RFunction.decoded m') := by
    refine List.ext_getElem (by simp [h.nfunctions]) fun i h1 h2 => ?_
    simp only [List.length_map] at h1 h2
    simp only [List.getElem_map]
    have g := h.functions i _ _ (List.getElem?_eq_getElem h1) (List.getElem?_eq_getElem h2)
    simp only [RFunction.decoded, g.type, g.findex, g.regs, g.ops, htt, ← h.hasDebug]
    cases hb : m.hasDebug with
    | false => rfl
    | true => rw [g.debug hb]
  have hn : m.natives.map (RNative.decoded m) = m'.natives.map (RNative.decoded m') := by
    rw [h.natives]
    refine List.map_congr_left fun n _ => ?_
    simp only [RNative.decoded, h.strings, htt]
  unfold RModule.decoded
  simp only [hf, hn, htt, h.version, h.hasDebug, h.entrypoint, h.ints, h.floats, h.strings, h.bytes, h.bytesPos, h.debugFiles, h.types,
    h.globals, h.nfunctions, h.constants]
  rw [h.natives]

/-- **C98** The serialisations of two modules whose strings and types are distinct are read to the same code (whatever follows
them, and up to the cache of strings) if and only if the modules are the same, but for the form of the debug information. -/
theorem c98_no_confusion (m m' : RModule) (hm : m.Right) (hb : m.NotBare) (hd : m.Distinct) (hm' : m'.Right) (hb' : m'.NotBare)
    (hd' : m'.Distinct) (p p' : Profile) (rest rest' : List UInt8) :
    ∃ c s c' s', Code.read p none (m.encode ++ rest) = .ok c s ∧ Code.read p' none (m'.encode ++ rest') = .ok c' s' ∧
      ({ c with ustrings := [] } = { c' with ustrings := [] } ↔ m.Same m') := by
  obtain ⟨u, h⟩ := right_roundtrip m hm hb p rest
  obtain ⟨u', h'⟩ := right_roundtrip m' hm' hb' p' rest'
  refine ⟨_, _, _, _, h, h', fun e => same_of_decoded hm hm' hd hd' ?_, fun e => ?_⟩
  · exact e
  · rw [decoded_of_same e]

/-- The debug information of the example in another form, and with other assignments: a second file item, and an absolute line
instead of a step. -/
def exampleRewritten : RModule := { exampleModule with
  functions := [{ type := 3, findex := 1, regs := [1, 0], ops := [.plain .OInt [0, 0], .call .OCallN 0 0 [1, 0], .plain .ORet [0]],
                  debug := [.file 0, .file 0, .abs 10, .abs 11, .step 3], assigns := [(1, 0), (0, 3)] }] }

theorem exampleRewritten_good : exampleRewritten.Good := by
  refine { exampleModule_good with functions := ?_ }
  intro t ht
  simp only [exampleRewritten, List.mem_cons, List.not_mem_nil, or_false] at ht
  subst ht
  exact {
    type := by decide
    findex := by decide
    nregs := by decide
    regs := by decide
    nops := by decide
    ops := by
      intro o ho
      simp only [List.mem_cons, List.not_mem_nil, or_false] at ho
      rcases ho with rfl | rfl | rfl
      · exact ⟨by decide, rfl, by decide⟩
      · exact ⟨rfl, by decide, by decide, by decide, by decide⟩
      · exact ⟨by decide, rfl, by decide⟩
    debug := fun _ => by
      refine ⟨⟨by decide, ?_, by decide, by intro i hi; cases hi; decide⟩, by decide, by decide⟩
      simp [exampleRewritten, exampleModule]
    assigns := by decide }

theorem exampleModule_distinct : exampleModule.Distinct where
  strings := by decide
  types := by decide +kernel
  backward := by
    intro i t h
    match i with
    | 0 | 1 | 2 | 3 | 4 => cases h; decide
    | i + 5 => cases h

/-- The hypotheses of C98 are met by modules that are different but the same for a reader, and by modules that are not the same
(another entry point). -/
theorem c98_witness :
    (exampleModule.Good ∧ exampleModule.NotBare ∧ exampleModule.Distinct) ∧
    (exampleRewritten.Good ∧ exampleRewritten.NotBare ∧ exampleRewritten.Distinct) ∧
    exampleModule.encode ≠ exampleRewritten.encode ∧ exampleModule.Same exampleRewritten ∧
    ({ exampleModule with entrypoint := 0 } : RModule).Good ∧ ({ exampleModule with entrypoint := 0 } : RModule).NotBare ∧
    ({ exampleModule with entrypoint := 0 } : RModule).Distinct ∧ ¬ exampleModule.Same { exampleModule with entrypoint := 0 } := by
  refine ⟨⟨exampleModule_good, .inl rfl, exampleModule_distinct⟩,
    ⟨exampleRewritten_good, .inl rfl, ⟨exampleModule_distinct.strings, exampleModule_distinct.types, exampleModule_distinct.backward⟩⟩,
    by decide +kernel, ?_, { exampleModule_good with entrypoint := by decide, functions := ?_ }, .inl rfl,
    ⟨exampleModule_distinct.strings, exampleModule_distinct.types, exampleModule_distinct.backward⟩, ?_⟩
  · refine ⟨rfl, rfl, rfl, rfl, rfl, rfl, rfl, rfl, rfl, rfl, rfl, rfl, rfl, ?_, rfl⟩
    intro i f f' h h'
    match i with
    | 0 => cases h; cases h'; exact ⟨rfl, rfl, rfl, rfl, fun _ => by decide⟩
    | i + 1 => cases h
  · intro f hf
    obtain ⟨a, b, c, d, e, f, g, h⟩ := exampleModule_good.functions f hf
    exact ⟨a, b, c, d, e, f, g, h⟩
  · intro h; cases h.entrypoint

/-- A module with two equal types and a global of the type `g`. -/
def twice (g : Nat) : RModule where
  version := 5
  hasDebug := false
  entrypoint := 0
  ints := []
  floats := []
  strings := [['a'], ['a']]
  bytes := []
  bytesPos := []
  debugFiles := []
  types := [.prim .HI32, .prim .HI32]
  globals := [g]
  natives := [⟨0, g, 0, 0⟩]
  functions := []
  constants := []

theorem twice_good (g : Nat) (hg : g < 2) : (twice g).Good where
  version := by show 2 ≤ 5 ∧ 5 ≤ 5; decide
  bytes := by intro h; cases h <;> contradiction
  noConstants := fun _ => rfl
  noDebug := fun _ => rfl
  entrypoint := by show 0 < 0x2000; decide
  nints := by show 0 < 0x2000; decide
  ints := by intro v hv; cases hv
  nfloats := by show 0 < 0x2000; decide
  floats := by intro v hv; cases hv
  nstrings := by show 2 < 0x2000; decide
  strings := by show ∀ s ∈ [['a'], ['a']], (utf8 s).length < 0x2000; decide +kernel
  nbytes := by show 0 < 2 ^ 31 ∧ 0 < 0x2000; decide
  bytesPos := by intro v hv; cases hv
  ndebugFiles := by show 0 < 0x2000; decide
  debugFiles := by intro v hv; cases hv
  ntypes := by show 2 < 0x2000; decide
  types := by
    intro t ht
    have : t = .prim .HI32 := by simpa [twice] using ht
    subst this
    exact ⟨by simp only [RType.Small]; decide, (by intro j hj; cases hj), (by intro j hj; cases hj)⟩
  order := trivial
  nglobals := by show 1 < 0x2000; decide
  globals := by
    intro t ht
    have : t = g := by simpa [twice] using ht
    subst this; exact hg
  nnatives := by show 1 < 0x2000; decide
  natives := by
    intro n hn
    have : n = ⟨0, g, 0, 0⟩ := by simpa [twice] using hn
    subst this
    exact ⟨by show 0 < 2; decide, hg, by show 0 < 2; decide, by show 0 < 0x2000; decide⟩
  nfunctions := by show 0 < 0x2000; decide
  functions := by intro v hv; cases hv
  nconstants := by show 0 < 0x2000; decide
  constants := by intro v hv; cases hv

/-- **C98** Without the condition that strings and types are distinct, different modules are read to the same code: it cannot be
seen which of two equal types a global has, or which of two equal strings is the name of a native. -/
theorem c98_equal_entries_confused (p : Profile) : (twice 0).Good ∧ (twice 1).Good ∧ ¬ (twice 0).Same (twice 1) ∧
    ∃ c s c' s', Code.read p none (twice 0).encode = .ok c s ∧ Code.read p none (twice 1).encode = .ok c' s' ∧
      { c with ustrings := [] } = { c' with ustrings := [] } := by
  obtain ⟨u, h⟩ := right_roundtrip _ (twice_good 0 (by decide)).right (.inr (.inl (by intro h; cases h))) p []
  obtain ⟨u', h'⟩ := right_roundtrip _ (twice_good 1 (by decide)).right (.inr (.inl (by intro h; cases h))) p []
  rw [List.append_nil] at h h'
  refine ⟨twice_good 0 (by decide), twice_good 1 (by decide), fun h => (by have := h.globals; cases this), _, _, _, _, h, h', rfl⟩

end Verif.Brass
