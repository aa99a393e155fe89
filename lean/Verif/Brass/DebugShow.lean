import Verif.Brass.DebugValues
import Verif.Spec.DebugFormat

/-!
# The texts of `core::fmt` and the templates of the specification
-/

namespace Verif.Brass

open Verif Verif.Brass.Spec

theorem cat_toList (a b : String) : (a ⋅ b).toList = a.toList ++ b.toList := by unfold cat; exact String.toList_append

theorem toString_nat (n : Nat) : (toString n).toList = decNat n := by
  show (Nat.repr n).toList = _
  unfold Nat.repr decNat
  exact String.toList_ofList

theorem toString_int (i : Int) : (toString i).toList = decInt i := by
  cases i with
  | ofNat n => exact toString_nat n
  | negSucc n =>
    show ("-" ++ toString (n + 1)).toList = _
    rw [String.toList_append, toString_nat]
    rfl

theorem ofNat_text (pr : Char → Bool) (n : Nat) : (dbgNat n).text pr = (toString n).toList := by rw [toString_nat]; rw [dbgNat, Dbg.text]
theorem ofInt_text (pr : Char → Bool) (n : Int) : (dbgInt n).text pr = (toString n).toList := by rw [toString_int]; rw [dbgInt, Dbg.text]

/-- The items of a list. -/
theorem items_text (pr : Char → Bool) : ∀ (v : Dbg) (l : List Dbg) (a : String) (m : List String), v.text pr = a.toList →
    l.map (Dbg.text pr) = m.map String.toList → v.text pr ++ restItems pr l = (commas (a :: m)).toList
  | v, [], a, [], h, _ => by rw [restItems, commas, h, List.append_nil]
  | v, [], a, _ :: _, _, h => by cases h
  | v, _ :: _, a, [], _, h => by cases h
  | v, w :: l, a, b :: m, h, h' => by
    simp only [List.map_cons, List.cons.injEq] at h'
    rw [restItems, commas, h, cat_toList, cat_toList, ← items_text pr w l b m h'.1 h'.2]
    simp

theorem list_text (pr : Char → Bool) {l : List Dbg} {m : List String} (h : l.map (Dbg.text pr) = m.map String.toList) :
    (Dbg.list l).text pr = (brackets m).toList := by
  cases l with
  | nil =>
    cases m with
    | nil => rw [Dbg.text]; simp [brackets, commas, cat_toList]
    | cons => cases h
  | cons v l =>
    cases m with
    | nil => cases h
    | cons a m =>
      simp only [List.map_cons, List.cons.injEq] at h
      have := items_text pr v l a m h.1 h.2
      rw [Dbg.text, brackets, cat_toList, cat_toList, ← this]
      simp

theorem map_text {α : Type} (pr : Char → Bool) {f : α → Dbg} {g : α → String} (h : ∀ a, (f a).text pr = (g a).toList) (l : List α) :
    (l.map f).map (Dbg.text pr) = (l.map g).map String.toList := by
  rw [List.map_map, List.map_map]
  exact List.map_congr_left fun a _ => h a

theorem opt_text {α : Type} (pr : Char → Bool) {f : α → Dbg} {g : α → String} {o : Option α} (h : ∀ a, o = some a → (f a).text pr = (g a).toList) :
    (dbgOpt f o).text pr = (optionText (o.map g)).toList := by
  cases o with
  | none => rw [dbgOpt, Dbg.text]; simp [optionText]
  | some a => rw [dbgOpt, Dbg.text, h a rfl]; simp [optionText, cat_toList]

theorem escape_text (pr : Char → Bool) (c : Char) : escape pr c = (escapedChar pr c).toList := by
  unfold escape escapedChar
  split
  · next h => subst h; simp
  split
  · next h => subst h; simp
  split
  · next h => subst h; simp
  split
  · next h => subst h; simp
  split
  · next h => subst h; simp
  split
  · next h => subst h; simp
  · split <;> simp_all

theorem escapes_text (pr : Char → Bool) : ∀ s : Text, s.flatMap (escape pr) = (escapedChars pr s).toList
  | [] => by simp [escapedChars]
  | c :: s => by rw [List.flatMap_cons, escape_text, escapes_text pr s, escapedChars, String.toList_append]

theorem str_text (pr : Char → Bool) {dec : Str → String} (hd : Decodes dec) {s : Str} (h : ∃ t, s = utf8 t) :
    (dbgStr s).text pr = (inQuotes pr (dec s)).toList := by
  obtain ⟨t, rfl⟩ := h
  rw [dbgStr, Dbg.text, textOf_utf8, hd, inQuotes, escapes_text, String.toList_append, String.toList_append, String.toList_ofList]
  simp

theorem kind_text (pr : Char → Bool) (k : TypeKind) : k.dbg.text pr = (kindName k).toList := by
  rw [TypeKind.dbg, Dbg.text]
  cases k <;> rfl

theorem op_text (pr : Char → Bool) (o : Op) : o.dbg.text pr = (opName o).toList := by
  rw [Op.dbg, Dbg.text]
  cases o <;> rfl

/-- Texts of concrete templates. -/
macro "template" : tactic => `(tactic| (repeat rw [cat_toList]) <;> simp only [String.reduceToList] <;>
  simp only [List.append_assoc, List.cons_append, List.nil_append])

theorem opcode_text (pr : Char → Bool) (o : Opcode) : o.dbg.text pr = (showOpcode o).toList := by
  rw [Opcode.dbg]
  simp only [Dbg.text, DbgField.text, restFields]
  rw [op_text, opt_text pr (o := o.p1) (fun a _ => ofInt_text pr a), opt_text pr (o := o.p2) (fun a _ => ofInt_text pr a),
    opt_text pr (o := o.p3) (fun a _ => ofInt_text pr a), list_text pr (map_text pr (ofInt_text pr) o.extra)]
  unfold showOpcode
  template

theorem proto_text (pr : Char → Bool) {dec : Str → String} (hd : Decodes dec) {f : ObjProto} (h : ∃ t, f.name = utf8 t) :
    f.dbg.text pr = (showProto pr dec f).toList := by
  rw [ObjProto.dbg]
  simp only [Dbg.text, DbgField.text, restFields]
  rw [str_text pr hd h, ofNat_text, ofNat_text, ofInt_text]
  unfold showProto
  template

theorem bool_text (pr : Char → Bool) (b : Bool) : (dbgBool b).text pr = (if b then "true" else "false" : String).toList := by
  rw [dbgBool, Dbg.text]
  cases b <;> rfl

mutual
theorem type_text (pr : Char → Bool) {dec : Str → String} (hd : Decodes dec) : ∀ t : ValueType, AreTexts (stringsIn t) →
    t.dbg.text pr = (showType pr dec t).toList
  | ⟨u, a, t, k⟩, h => by
    rw [stringsIn, AreTexts.append, AreTexts.append] at h
    rw [ValueType.dbg]
    simp only [Dbg.text, DbgField.text, restFields]
    rw [union_text pr hd u h.1.1, opt_text pr (g := fun s => inQuotes pr (dec s)) (o := a) (fun s hs => str_text pr hd (h.1.2 s (by simp [hs]))),
      param_text pr hd t h.2, kind_text, showType]
    template
theorem union_text (pr : Char → Bool) {dec : Str → String} (hd : Decodes dec) : ∀ t : ValueTypeU, AreTexts (stringsInU t) →
    t.dbg.text pr = (showUnion pr dec t).toList
  | .func args nargs ret, h => by
    rw [stringsInU, AreTexts.append] at h
    rw [ValueTypeU.dbg]
    simp only [Dbg.text, DbgField.text, restFields]
    rw [list_text pr (types_text pr hd args h.1), ofNat_text, type_text pr hd ret h.2, showUnion]
    template
  | .obj name sup fields nf np nb protos bindings gv rt, h => by
    rw [stringsInU, AreTexts.append, AreTexts.append, AreTexts.cons] at h
    rw [ValueTypeU.dbg]
    have hp : (protos.map ObjProto.dbg).map (Dbg.text pr) = (protos.map (showProto pr dec)).map String.toList := by
      rw [List.map_map, List.map_map]
      exact List.map_congr_left fun f hf => proto_text pr hd (h.2 _ (List.mem_map_of_mem hf))
    simp only [Dbg.text, DbgField.text, restFields]
    rw [str_text pr hd h.1.1.1, type_text pr hd sup h.1.1.2, list_text pr (fields_text pr hd fields h.1.2), ofNat_text, ofNat_text, ofNat_text,
      list_text pr hp, list_text pr (map_text pr (ofNat_text pr) bindings), list_text pr (map_text pr (ofInt_text pr) gv),
      opt_text pr (o := rt) (g := fun _ => "RuntimeObj") (fun _ _ => by rw [Dbg.text]; rfl), showUnion]
    template
  | .virt nf fields, h => by
    rw [stringsInU] at h
    rw [ValueTypeU.dbg]
    simp only [Dbg.text, DbgField.text, restFields]
    rw [ofNat_text, list_text pr (fields_text pr hd fields h), showUnion]
    template
  | .enum name n constructs gv, h => by
    rw [stringsInU, AreTexts.cons] at h
    rw [ValueTypeU.dbg]
    simp only [Dbg.text, DbgField.text, restFields]
    rw [str_text pr hd h.1, ofNat_text, list_text pr (constructs_text pr hd constructs h.2), list_text pr (map_text pr (ofInt_text pr) gv), showUnion]
    template
  | .ref t, h => by
    rw [stringsInU] at h
    rw [ValueTypeU.dbg, Dbg.text, type_text pr hd t h, showUnion]
    template
  | .abstract name, h => by
    rw [stringsInU, AreTexts.cons] at h
    rw [ValueTypeU.dbg, Dbg.text, str_text pr hd h.1, showUnion]
    template
  | .null, h => by rw [ValueTypeU.dbg, Dbg.text, showUnion]; rfl
  | .void, h => by rw [ValueTypeU.dbg, Dbg.text, showUnion]; rfl
theorem param_text (pr : Char → Bool) {dec : Str → String} (hd : Decodes dec) : ∀ t : Option ValueType, AreTexts (stringsInOpt t) →
    (dbgType? t).text pr = (showParam pr dec t).toList
  | none, h => by rw [dbgType?, Dbg.text, showParam]; rfl
  | some t, h => by
    rw [stringsInOpt] at h
    rw [dbgType?, Dbg.text, type_text pr hd t h, showParam]
    template
theorem types_text (pr : Char → Bool) {dec : Str → String} (hd : Decodes dec) : ∀ l : List ValueType, AreTexts (stringsInTypes l) →
    (dbgTypes l).map (Dbg.text pr) = (showTypes pr dec l).map String.toList
  | [], _ => by rw [dbgTypes, showTypes]; rfl
  | t :: l, h => by
    rw [stringsInTypes, AreTexts.append] at h
    rw [dbgTypes, showTypes, List.map_cons, List.map_cons, type_text pr hd t h.1, types_text pr hd l h.2]
theorem fields_text (pr : Char → Bool) {dec : Str → String} (hd : Decodes dec) : ∀ l : List ObjField, AreTexts (stringsInFields l) →
    (dbgFields l).map (Dbg.text pr) = (showFields pr dec l).map String.toList
  | [], _ => by rw [dbgFields, showFields]; rfl
  | ⟨name, hash, t⟩ :: l, h => by
    rw [stringsInFields, AreTexts.append, AreTexts.cons] at h
    rw [dbgFields, showFields, List.map_cons, List.map_cons, fields_text pr hd l h.2, ObjField.dbg]
    congr 1
    simp only [Dbg.text, DbgField.text, restFields]
    rw [str_text pr hd h.1.1, ofNat_text, type_text pr hd t h.1.2]
    template
theorem constructs_text (pr : Char → Bool) {dec : Str → String} (hd : Decodes dec) : ∀ l : List EnumConstruct, AreTexts (stringsInConstructs l) →
    (dbgConstructs l).map (Dbg.text pr) = (showConstructs pr dec l).map String.toList
  | [], _ => by rw [dbgConstructs, showConstructs]; rfl
  | ⟨name, n, params, size, hasptr, offsets⟩ :: l, h => by
    rw [stringsInConstructs, AreTexts.append, AreTexts.cons] at h
    rw [dbgConstructs, showConstructs, List.map_cons, List.map_cons, constructs_text pr hd l h.2, EnumConstruct.dbg]
    congr 1
    simp only [Dbg.text, DbgField.text, restFields]
    rw [str_text pr hd h.1.1, ofNat_text, list_text pr (types_text pr hd params h.1.2), ofNat_text, bool_text,
      list_text pr (map_text pr (ofInt_text pr) offsets)]
    template
end

theorem function_text (pr : Char → Bool) {dec : Str → String} (hd : Decodes dec) (f : HLFunction) (h : AreTexts (stringsInFunction f))
    (ho : f.obj = none) (hf : f.field = none) : f.dbg.text pr = (showFunction pr dec f).toList := by
  obtain ⟨t, findex, nregs, nops, rf, regs, ops, debug, obj, field⟩ := f
  cases ho
  cases hf
  unfold stringsInFunction at h
  simp only [AreTexts.append] at h
  rw [HLFunction.dbg, dbgField?]
  simp only [Dbg.text, DbgField.text, restFields, dbgOpt]
  rw [type_text pr hd t h.1.1.1, ofNat_text, ofNat_text, ofNat_text, ofNat_text, list_text pr (types_text pr hd regs h.1.1.2),
    list_text pr (map_text pr (opcode_text pr) ops), list_text pr (map_text pr (ofInt_text pr) debug)]
  unfold showFunction
  template

end Verif.Brass
