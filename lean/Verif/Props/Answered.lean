import Verif.Props.Lookup
import Verif.Props.Same
import Verif.Brass.Right

/-!
# What is read if the names are not looked up in order (C112)
-/

namespace Verif.Brass

open Verif Verif.Brass.Spec

/-- **C112** `Code::read` on the serialisation of a module, in whatever order its types refer to their names: everything is
read as it is in the file (as in C43), only that each name in a type is the string found for it in the cache. -/
theorem c112_read_as (m : RModule) (hm : m.Readable) (hb : m.NotBare) (p : Profile) (rest : List UInt8) :
    ∃ u, Code.read p none (m.encode ++ rest) =
      .ok { m.asAnswered.decoded with ustrings := u } ⟨rest, m.encode.length, { m.asAnswered.decoded with ustrings := u }, none⟩ := by
  obtain ⟨u, h⟩ := module_enc' hm p hb
  refine ⟨u, ?_⟩
  have := (Sem.readM p).complete _ _ _ _ trivial h rest 0
  rw [Nat.zero_add] at this
  exact this

/-- The names in a decoded type. -/
theorem namesIn_decoded (strs : List Text) (prev : List ValueType) (t : RType) : namesIn (t.decoded strs prev) = t.names.map (sref strs) := by
  cases t with
  | func m args ret => cases m <;> rfl
  | obj s name super global fields protos bindings =>
    cases s <;> simp [namesIn, RType.decoded, RType.names, ofKind, RField.decoded, RProto.decoded, Function.comp_def]
  | virt fields => simp [namesIn, RType.decoded, RType.names, ofKind, RField.decoded, Function.comp_def]
  | enum name global cs => simp [namesIn, RType.decoded, RType.names, ofKind, RConstruct.decoded, Function.comp_def]
  | _ => rfl

theorem namesIn_types (strs : List Text) : ∀ (l : List RType) (prev : List ValueType),
    (decodeTypes strs prev l).flatMap namesIn = prev.flatMap namesIn ++ (l.flatMap RType.names).map (sref strs)
  | [], prev => by simp [decodeTypes]
  | t :: l, prev => by
    rw [decodeTypes, namesIn_types strs l]
    simp [namesIn_decoded]

theorem namesIn_table (m : RModule) : m.typeTable.flatMap namesIn = (m.types.flatMap RType.names).map (sref m.strings) := by
  unfold RModule.typeTable
  rw [namesIn_types]; rfl

theorem asAnswered_names (m : RModule) : m.asAnswered.types.flatMap RType.names = found m :=
  (renameTypes_facts m.types (found m) (found_length m)).1

/-- **C112** So the names in the decoded types, in the order of the file, are the strings found by the lookups of the names,
in this order. -/
theorem c112_names (m : RModule) (hm : m.Readable) (hb : m.NotBare) (p : Profile) (rest : List UInt8) (c : Code) (s : St)
    (h : Code.read p none (m.encode ++ rest) = .ok c s) :
    (c.types.take c.ntypes).flatMap namesIn =
      (answered m.strings.length (fun _ => none) (m.types.flatMap RType.names)).map fun x => utf8 (m.strings[x]?.getD []) := by
  obtain ⟨u, e⟩ := c112_read_as m hm hb p rest
  rw [e] at h
  cases h
  have hl : m.asAnswered.typeTable.length = m.asAnswered.types.length := (decodeTypes_length _ _ []).trans (by simp)
  show ((m.asAnswered.typeTable ++ List.replicate m.asAnswered.types.length noType).take m.asAnswered.types.length).flatMap namesIn = _
  rw [List.take_left' hl, namesIn_table, asAnswered_names]
  rfl

/-- **C112** The module is read correctly exactly if for each name in a type the text found in the cache is the right one; lookups
in order (C43) are sufficient for that. -/
theorem c112_right_iff (m : RModule) (hm : m.Readable) (hb : m.NotBare) (p : Profile) (rest : List UInt8) :
    (∃ u s, Code.read p none (m.encode ++ rest) = .ok { m.decoded with ustrings := u } s) ↔
      (answered m.strings.length (fun _ => none) (m.types.flatMap RType.names)).map (fun i => m.strings[i]?) =
        (m.types.flatMap RType.names).map fun i => m.strings[i]? := by
  constructor
  · rintro ⟨u, s, h⟩
    have hn := c112_names m hm hb p rest _ _ h
    have hl : m.typeTable.length = m.types.length := (decodeTypes_length _ _ []).trans (by simp)
    have e : ((m.typeTable ++ List.replicate m.types.length noType).take m.types.length).flatMap namesIn = _ := hn
    rw [List.take_left' hl, namesIn_table] at e
    have hr : ∀ i ∈ m.types.flatMap RType.names, i < m.strings.length := fun i hi => by
      obtain ⟨t1, ht1, hi⟩ := List.mem_flatMap.1 hi
      exact (hm.types t1 ht1).2.2 i hi
    have hr' := answered_lt (m.types.flatMap RType.names) _ (fun _ => none) (fun _ _ h => by cases h) hr
    have key : ∀ (l l' : List Nat), (∀ i ∈ l, i < m.strings.length) → (∀ i ∈ l', i < m.strings.length) →
        l'.map (sref m.strings) = l.map (sref m.strings) → l.map (fun i => m.strings[i]?) = l'.map fun i => m.strings[i]? := by
      intro l
      induction l with
      | nil => intro l' _ _ h; cases l' <;> simp_all
      | cons i l ih =>
        intro l' h1 h2 h
        cases l' with
        | nil => simp at h
        | cons j l' =>
          simp only [List.map_cons, List.cons.injEq] at h ⊢
          refine ⟨?_, ih l' (fun i hi => h1 i (by simp [hi])) (fun i hi => h2 i (by simp [hi])) h.2⟩
          have e := utf8_inj h.1
          have hi := h1 i (by simp)
          have hj := h2 j (by simp)
          rw [List.getElem?_eq_getElem hi, List.getElem?_eq_getElem hj] at e ⊢
          exact congrArg some e.symm
    exact key _ _ hr' hr e
  · intro h
    obtain ⟨u, e⟩ := right_roundtrip m ⟨hm, h⟩ hb p rest
    exact ⟨u, _, e⟩

/-- **C112** If no two strings are equal, this means that each name is found as itself. -/
theorem c112_right_distinct (m : RModule) (hm : m.Readable) (hb : m.NotBare) (hd : m.strings.Nodup) (p : Profile) (rest : List UInt8) :
    (∃ u s, Code.read p none (m.encode ++ rest) = .ok { m.decoded with ustrings := u } s) ↔
      answered m.strings.length (fun _ => none) (m.types.flatMap RType.names) = m.types.flatMap RType.names := by
  rw [c112_right_iff m hm hb p rest]
  refine ⟨fun h => ?_, fun h => by rw [h]⟩
  have hr : ∀ i ∈ m.types.flatMap RType.names, i < m.strings.length := fun i hi => by
    obtain ⟨t1, ht1, hi⟩ := List.mem_flatMap.1 hi
    exact (hm.types t1 ht1).2.2 i hi
  have hr' := answered_lt (m.types.flatMap RType.names) _ (fun _ => none) (fun _ _ h => by cases h) hr
  have key : ∀ (l l' : List Nat), (∀ i ∈ l, i < m.strings.length) → l.map (fun i => m.strings[i]?) = l'.map (fun i => m.strings[i]?) → l = l' := by
    intro l
    induction l with
    | nil => intro l' _ h; cases l' <;> simp_all
    | cons i l ih =>
      intro l' h1 h
      cases l' with
      | nil => simp at h
      | cons j l' =>
        simp only [List.map_cons, List.cons.injEq] at h
        have hi := h1 i (by simp)
        rw [ih l' (fun i hi => h1 i (by simp [hi])) h.2,
          nodup_get_inj hd (List.getElem?_eq_getElem hi) (by rw [← h.1, List.getElem?_eq_getElem hi])]
  exact key _ _ hr' h

/-- An object named by string 1, whose fields are named by the strings 0 and 2 and whose method is named by string 3. -/
def mixedModule : RModule where
  version := 2
  hasDebug := false
  entrypoint := 0
  ints := []
  floats := []
  strings := [['a'], ['b'], ['c'], ['d']]
  bytes := []
  bytesPos := []
  debugFiles := []
  types := [.prim .HI32, .obj false 1 none 0 [⟨0, 0⟩, ⟨2, 0⟩] [⟨3, 0, -1⟩] []]
  globals := []
  natives := []
  functions := []
  constants := []

theorem mixedModule_readable : mixedModule.Readable where
  version := by decide
  bytes := by decide
  noConstants := by decide
  noDebug := by decide
  entrypoint := by decide
  nints := by decide
  ints := by decide
  nfloats := by decide
  floats := by decide
  nstrings := by decide
  strings := by decide +kernel
  nbytes := by decide
  bytesPos := by decide
  ndebugFiles := by decide
  debugFiles := by decide
  ntypes := by decide
  types := by
    intro t ht
    simp only [mixedModule, List.mem_cons, List.not_mem_nil, or_false] at ht
    rcases ht with rfl | rfl <;>
      refine ⟨?_, by decide, by decide⟩ <;> simp only [RType.Small] <;> decide
  nglobals := by decide
  globals := by decide
  nnatives := by decide
  natives := by simp [mixedModule]
  nfunctions := by decide
  functions := by simp [mixedModule]
  nconstants := by decide
  constants := by simp [mixedModule]

/-- The hypotheses of C112 are satisfiable by a module whose names are not looked up in order; it is read as if the second
field was named by string 1 (the name of the object). -/
example : mixedModule.Readable ∧ mixedModule.NotBare ∧ mixedModule.strings.Nodup ∧ ¬ mixedModule.Good ∧
    mixedModule.asAnswered.types = [.prim .HI32, .obj false 1 none 0 [⟨0, 0⟩, ⟨1, 0⟩] [⟨3, 0, -1⟩] []] := by
  refine ⟨mixedModule_readable, Or.inr (Or.inl (by decide)), by decide, fun h => absurd h.order (by decide), rfl⟩

end Verif.Brass
