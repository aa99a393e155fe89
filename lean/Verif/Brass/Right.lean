import Verif.Props.Roundtrip
import Verif.Brass.TextLemmas

/-!
# Modules whose names are found are read correctly
-/

namespace Verif.Brass

open Verif Verif.Brass.Spec

theorem sref_of_get {strs : List Text} {i j : Nat} (h : strs[i]? = strs[j]?) : sref strs i = sref strs j := by
  unfold sref; rw [h]

/-- Decoding does not change if names are replaced by such with the same text. -/
theorem zip_decoded {α β : Type} (dec : α → β) (name : α → Nat) (ren : α → Nat → α) (strs : List Text)
    (h : ∀ a n, strs[n]? = strs[name a]? → dec (ren a n) = dec a) :
    ∀ (l : List α) (ns : List Nat), ns.map (fun i => strs[i]?) = l.map (fun a => strs[name a]?) →
      ((l.zip ns).map fun x => ren x.1 x.2).map dec = l.map dec
  | [], [], _ => rfl
  | [], n :: ns, e => by simp at e
  | a :: l, [], e => by simp at e
  | a :: l, n :: ns, e => by
    simp only [List.map_cons, List.cons.injEq] at e
    simp only [List.zip_cons_cons, List.map_cons, h a n e.1, zip_decoded dec name ren strs h l ns e.2]

theorem renamed_decoded (strs : List Text) (prev : List ValueType) (t : RType) (ns : List Nat)
    (h : ns.map (fun i => strs[i]?) = t.names.map fun i => strs[i]?) : (t.renamed ns).decoded strs prev = t.decoded strs prev := by
  have hF : ∀ (f : RField) (n : Nat), strs[n]? = strs[f.name]? → RField.decoded strs prev (f.renamed n) = RField.decoded strs prev f := by
    intro f n e
    simp only [RField.decoded, RField.renamed, sref_of_get e]
  have hP : ∀ (f : RProto) (n : Nat), strs[n]? = strs[f.name]? → RProto.decoded strs (f.renamed n) = RProto.decoded strs f := by
    intro f n e
    simp only [RProto.decoded, RProto.renamed, sref_of_get e]
  have hC : ∀ (f : RConstruct) (n : Nat), strs[n]? = strs[f.name]? → RConstruct.decoded strs prev (f.renamed n) = RConstruct.decoded strs prev f := by
    intro f n e
    simp only [RConstruct.decoded, RConstruct.renamed, sref_of_get e]
  cases t with
  | obj s name super global fs ps bs =>
    cases ns with
    | nil => simp [RType.names] at h
    | cons x ns =>
      simp only [RType.names, List.map_cons, List.map_append, List.map_map, List.cons.injEq] at h
      obtain ⟨hx, h⟩ := h
      have hl := congrArg List.length h
      simp only [List.length_map, List.length_append] at hl
      obtain ⟨nf, np, rfl, hf⟩ : ∃ nf np, ns = nf ++ np ∧ nf.length = fs.length :=
        ⟨ns.take fs.length, ns.drop fs.length, (List.take_append_drop _ _).symm, by simp; omega⟩
      rw [List.map_append] at h
      obtain ⟨h1, h2⟩ := List.append_inj h (by simp [hf])
      have e1 : (1 + fs.length) = nf.length + 1 := by omega
      have e2 : fs.zip (nf ++ np) = fs.zip nf := by
        rw [← List.append_nil fs, List.zip_append (by simpa using hf.symm)]; simp
      have hp : ps.length = np.length := by simp at hl; omega
      simp only [RType.renamed, List.headD_cons, List.drop_succ_cons, List.drop_zero, e1, List.drop_left', e2, RType.decoded]
      rw [zip_decoded _ RField.name RField.renamed strs hF fs nf h1, zip_decoded _ RProto.name RProto.renamed strs hP ps np h2, sref_of_get hx]
      simp only [List.length_map, List.length_zip, hf, ← hp, Nat.min_self]
      rfl
  | virt fs =>
    simp only [RType.names, List.map_map] at h
    have hl := congrArg List.length h
    simp only [List.length_map] at hl
    simp only [RType.renamed, RType.decoded]
    rw [zip_decoded _ RField.name RField.renamed strs hF fs ns h]
    simp only [List.length_map, List.length_zip, hl, Nat.min_self]
    rfl
  | abstract n =>
    cases ns with
    | nil => simp [RType.names] at h
    | cons x ns =>
      simp only [RType.names, List.map_cons, List.cons.injEq] at h
      simp only [RType.renamed, List.headD_cons, RType.decoded, sref_of_get h.1]
      rfl
  | enum n global cs =>
    cases ns with
    | nil => simp [RType.names] at h
    | cons x ns =>
      simp only [RType.names, List.map_cons, List.map_map, List.cons.injEq] at h
      have hl := congrArg List.length h.2
      simp only [List.length_map] at hl
      simp only [RType.renamed, List.headD_cons, List.drop_succ_cons, List.drop_zero, RType.decoded]
      rw [zip_decoded _ RConstruct.name RConstruct.renamed strs hC cs ns h.2, sref_of_get h.1]
      simp only [List.length_map, List.length_zip, hl, Nat.min_self]
      rfl
  | _ => rfl

theorem renameTypes_decoded (strs : List Text) : ∀ (l : List RType) (prev : List ValueType) (ns : List Nat),
    ns.map (fun i => strs[i]?) = (l.flatMap RType.names).map (fun i => strs[i]?) →
      decodeTypes strs prev (renameTypes l ns) = decodeTypes strs prev l
  | [], _, _, _ => rfl
  | t :: l, prev, ns, h => by
    rw [List.flatMap_cons, List.map_append] at h
    have hl := congrArg List.length h
    simp only [List.length_map, List.length_append] at hl
    rw [← List.take_append_drop t.names.length ns, List.map_append] at h
    obtain ⟨h1, h2⟩ := List.append_inj h (by simp; omega)
    simp only [renameTypes, decodeTypes]
    rw [renamed_decoded strs prev t _ h1, renameTypes_decoded strs l _ _ h2]

/-- If each name is found, the module is decoded as it is. -/
theorem asAnswered_decoded {m : RModule} (h : m.NamesFound) : m.asAnswered.decoded = m.decoded := by
  have ht : m.asAnswered.typeTable = m.typeTable := renameTypes_decoded m.strings m.types [] _ h
  have hl := asAnswered_types m
  have hn : RNative.decoded m.asAnswered = RNative.decoded m := by
    funext n; unfold RNative.decoded; rw [ht]; rfl
  have hf : RFunction.decoded m.asAnswered = RFunction.decoded m := by
    funext n; unfold RFunction.decoded; rw [ht]; rfl
  unfold RModule.decoded
  rw [ht, hl, hn, hf]
  rfl

theorem Spec.RModule.Good.right {m : RModule} (hm : m.Good) : m.Right where
  toReadable := hm.toReadable
  found := by
    have : Verif.Brass.found m = m.types.flatMap RType.names := answered_inOrder _ _ [] _ (fun j => by simp) (fun i hi => by
      obtain ⟨t1, ht1, hi⟩ := List.mem_flatMap.1 hi
      exact (hm.types t1 ht1).2.2 i hi) hm.order
    show (Verif.Brass.found m).map _ = _
    rw [this]

/-- A module whose names are found is read as it is. -/
theorem right_roundtrip (m : RModule) (hm : m.Right) (hb : m.NotBare) (p : Profile) (rest : List UInt8) :
    ∃ u, Code.read p none (m.encode ++ rest) =
      .ok { m.decoded with ustrings := u } ⟨rest, m.encode.length, { m.decoded with ustrings := u }, none⟩ := by
  obtain ⟨u, h⟩ := module_enc' hm.toReadable p hb
  rw [asAnswered_decoded hm.found] at h
  refine ⟨u, ?_⟩
  have := (Sem.readM p).complete _ _ _ _ trivial h rest 0
  rw [Nat.zero_add] at this
  exact this

end Verif.Brass
