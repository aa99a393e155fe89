import Verif.Brass.DebugLemmas
import Verif.Spec.DebugText
import Verif.Spec.Size

/-!
# The trees of functions and types
-/

namespace Verif.Brass

open Verif Verif.Brass.Spec

/-! ## Names of variants -/

theorem getD_nodup : ∀ {l : List Text} {i j : Nat}, l.Nodup → i < l.length → j < l.length → l.getD i [] = l.getD j [] → i = j := by
  intro l i j hl hi hj h
  rw [List.getD_eq_getElem?_getD, List.getD_eq_getElem?_getD, List.getElem?_eq_getElem hi, List.getElem?_eq_getElem hj] at h
  by_cases e : i = j
  · exact e
  · have hp := List.pairwise_iff_getElem.1 hl
    rcases Nat.lt_or_gt_of_ne e with h1 | h1
    · exact absurd h (hp i j hi hj h1)
    · exact absurd h.symm (hp j i hj hi h1)

theorem TypeKind.ofNat_toNat (k : TypeKind) : TypeKind.ofNat? k.toNat = some k := by cases k <;> rfl

theorem TypeKind.dbg_inj {a b : TypeKind} (h : a.dbg = b.dbg) : a = b := by
  have h1 : a.toNat = b.toNat := getD_nodup (l := kindNames) (by decide +kernel) (by cases a <;> decide) (by cases b <;> decide) (Dbg.atom.inj h)
  have h2 := TypeKind.ofNat_toNat a
  rw [h1, TypeKind.ofNat_toNat b] at h2
  exact (Option.some.inj h2).symm

theorem TypeKind.dbg_ok (a : TypeKind) : a.dbg.Ok := by
  unfold TypeKind.dbg
  rw [Dbg.Ok]
  cases a <;> decide

theorem Op.dbg_inj {a b : Op} (h : a.dbg = b.dbg) : a = b :=
  Op.toNat_inj (getD_nodup (l := opNames) (by decide +kernel) (Op.toNat_lt a) (Op.toNat_lt b) (Dbg.atom.inj h))

theorem Op.dbg_ok (a : Op) : a.dbg.Ok := by
  unfold Op.dbg
  rw [Dbg.Ok]
  cases a <;> decide

/-! ## Simple values -/

theorem textOf_utf8 (t : Text) : textOf (utf8 t) = t := by
  have h : ∃ t', utf8 t = utf8 t' := ⟨t, rfl⟩
  unfold textOf
  rw [dif_pos h]
  exact utf8_inj h.choose_spec.symm

theorem dbgStr_inj {a b : Str} (ha : ∃ t, a = utf8 t) (hb : ∃ t, b = utf8 t) (h : dbgStr a = dbgStr b) : a = b := by
  obtain ⟨t, rfl⟩ := ha
  obtain ⟨u, rfl⟩ := hb
  have := Dbg.str.inj h
  rw [textOf_utf8, textOf_utf8] at this
  rw [this]

theorem dbgNat_inj {a b : Nat} (h : dbgNat a = dbgNat b) : a = b := decNat_inj (Dbg.atom.inj h)
theorem dbgInt_inj {a b : Int} (h : dbgInt a = dbgInt b) : a = b := decInt_inj (Dbg.atom.inj h)
theorem dbgBool_inj {a b : Bool} (h : dbgBool a = dbgBool b) : a = b := by
  have := Dbg.atom.inj h
  cases a <;> cases b <;> first | rfl | (exact absurd this (by decide))
theorem dbgHash_inj {a b : UInt32} (h : dbgNat a.toNat = dbgNat b.toNat) : a = b := UInt32.toNat_inj.1 (dbgNat_inj h)

theorem dbgOpt_inj {α : Type} {f : α → Dbg} {a b : Option α} (hf : ∀ x y, x ∈ a → y ∈ b → f x = f y → x = y) (h : dbgOpt f a = dbgOpt f b) : a = b := by
  cases a <;> cases b <;> simp only [dbgOpt] at h
  · rfl
  · cases h
  · cases h
  · rw [hf _ _ rfl rfl (Dbg.tuple.inj h).2]

theorem map_inj {α : Type} {f : α → Dbg} : ∀ {a b : List α}, (∀ x ∈ a, ∀ y ∈ b, f x = f y → x = y) → a.map f = b.map f → a = b
  | [], [], _, _ => rfl
  | [], _ :: _, _, h => by cases h
  | _ :: _, [], _, h => by cases h
  | x :: a, y :: b, hf, h => by
    simp only [List.map_cons, List.cons.injEq] at h
    rw [hf x List.mem_cons_self y List.mem_cons_self h.1, map_inj (fun x hx y hy => hf x (List.mem_cons_of_mem _ hx) y (List.mem_cons_of_mem _ hy)) h.2]

theorem natList_inj {a b : List Nat} (h : a.map dbgNat = b.map dbgNat) : a = b := map_inj (fun _ _ _ _ => dbgNat_inj) h
theorem intList_inj {a b : List Int} (h : a.map dbgInt = b.map dbgInt) : a = b := map_inj (fun _ _ _ _ => dbgInt_inj) h

theorem Opcode.dbg_inj {a b : Opcode} (h : a.dbg = b.dbg) : a = b := by
  obtain ⟨op, p1, p2, p3, ex⟩ := a
  obtain ⟨op', p1', p2', p3', ex'⟩ := b
  simp only [Opcode.dbg, Dbg.struct.injEq, List.cons.injEq, DbgField.mk.injEq, true_and, and_true, Dbg.list.injEq] at h
  obtain ⟨h1, h2, h3, h4, h5⟩ := h
  rw [Op.dbg_inj h1, dbgOpt_inj (fun _ _ _ _ => dbgInt_inj) h2, dbgOpt_inj (fun _ _ _ _ => dbgInt_inj) h3,
    dbgOpt_inj (fun _ _ _ _ => dbgInt_inj) h4, intList_inj h5]

theorem ObjProto.dbg_inj {a b : ObjProto} (ha : ∃ t, a.name = utf8 t) (hb : ∃ t, b.name = utf8 t) (h : a.dbg = b.dbg) : a = b := by
  obtain ⟨n, hn, f, p⟩ := a
  obtain ⟨n', hn', f', p'⟩ := b
  simp only [ObjProto.dbg, Dbg.struct.injEq, List.cons.injEq, DbgField.mk.injEq, true_and, and_true] at h
  obtain ⟨h1, h2, h3, h4⟩ := h
  rw [dbgStr_inj (a := n) (b := n') ha hb h1, dbgHash_inj h2, dbgNat_inj h3, dbgInt_inj h4]

/-! ## Trees are well-formed -/

theorem ok_nat (n : Nat) : (dbgNat n).Ok := by rw [dbgNat, Dbg.Ok]; exact decNat_word n
theorem ok_int (n : Int) : (dbgInt n).Ok := by rw [dbgInt, Dbg.Ok]; exact decInt_word n
theorem ok_bool (b : Bool) : (dbgBool b).Ok := by rw [dbgBool, Dbg.Ok]; cases b <;> decide
theorem ok_str (s : Str) : (dbgStr s).Ok := by rw [dbgStr, Dbg.Ok]; trivial
theorem ok_opt {α : Type} {f : α → Dbg} (hf : ∀ a, (f a).Ok) : ∀ a, (dbgOpt f a).Ok
  | none => by rw [dbgOpt, Dbg.Ok]; decide
  | some a => by rw [dbgOpt, Dbg.Ok]; exact ⟨by decide, hf a⟩
theorem ok_map {α : Type} {f : α → Dbg} (hf : ∀ a, (f a).Ok) : ∀ l : List α, okItems (l.map f)
  | [] => by rw [List.map_nil, okItems]; trivial
  | a :: l => by rw [List.map_cons, okItems]; exact ⟨hf a, ok_map hf l⟩

theorem okFields_cons {n : Text} {v : Dbg} {l : List DbgField} (hn : TextWord n) (hv : v.Ok) (hl : okFields l) : okFields (⟨n, v⟩ :: l) := by
  rw [okFields, DbgField.Ok]; exact ⟨⟨hn, hv⟩, hl⟩
theorem okFields_nil : okFields [] := by rw [okFields]; trivial
theorem ok_struct {n : Text} {f : DbgField} {l : List DbgField} (hn : TextWord n) (hl : okFields (f :: l)) : (Dbg.struct n (f :: l)).Ok := by
  rw [Dbg.Ok]; exact ⟨hn, by simp, hl⟩
theorem ok_list {l : List Dbg} (h : okItems l) : (Dbg.list l).Ok := by rw [Dbg.Ok]; exact h

theorem Opcode.dbg_ok (o : Opcode) : o.dbg.Ok :=
  ok_struct (by decide) (okFields_cons (by decide) o.op.dbg_ok (okFields_cons (by decide) (ok_opt ok_int _)
    (okFields_cons (by decide) (ok_opt ok_int _) (okFields_cons (by decide) (ok_opt ok_int _)
      (okFields_cons (by decide) (ok_list (ok_map ok_int _)) okFields_nil)))))

theorem ObjProto.dbg_ok (o : ObjProto) : o.dbg.Ok :=
  ok_struct (by decide) (okFields_cons (by decide) (ok_str _) (okFields_cons (by decide) (ok_nat _)
    (okFields_cons (by decide) (ok_nat _) (okFields_cons (by decide) (ok_int _) okFields_nil))))

mutual
theorem ValueType.dbg_ok : ∀ t : ValueType, t.dbg.Ok
  | ⟨u, a, t, k⟩ => by
    rw [ValueType.dbg]
    exact ok_struct (by decide) (okFields_cons (by decide) u.dbg_ok (okFields_cons (by decide) (ok_opt ok_str _)
      (okFields_cons (by decide) (dbgType?_ok t) (okFields_cons (by decide) k.dbg_ok okFields_nil))))
theorem ValueTypeU.dbg_ok : ∀ t : ValueTypeU, t.dbg.Ok
  | .func args nargs ret => by
    rw [ValueTypeU.dbg]
    exact ok_struct (by decide) (okFields_cons (by decide) (ok_list (dbgTypes_ok args)) (okFields_cons (by decide) (ok_nat _)
      (okFields_cons (by decide) ret.dbg_ok okFields_nil)))
  | .obj name superType fields nfields nproto nbindings proto bindings globalValue rt => by
    rw [ValueTypeU.dbg]
    exact ok_struct (by decide) (okFields_cons (by decide) (ok_str _) (okFields_cons (by decide) superType.dbg_ok
      (okFields_cons (by decide) (ok_list (dbgFields_ok fields)) (okFields_cons (by decide) (ok_nat _) (okFields_cons (by decide) (ok_nat _)
        (okFields_cons (by decide) (ok_nat _) (okFields_cons (by decide) (ok_list (ok_map ObjProto.dbg_ok _))
          (okFields_cons (by decide) (ok_list (ok_map ok_nat _)) (okFields_cons (by decide) (ok_list (ok_map ok_int _))
            (okFields_cons (by decide) (ok_opt (fun _ => by rw [Dbg.Ok]; decide) _) okFields_nil))))))))))
  | .virt nfields fields => by
    rw [ValueTypeU.dbg]
    exact ok_struct (by decide) (okFields_cons (by decide) (ok_nat _) (okFields_cons (by decide) (ok_list (dbgFields_ok fields)) okFields_nil))
  | .enum name nconstructs constructs globalValue => by
    rw [ValueTypeU.dbg]
    exact ok_struct (by decide) (okFields_cons (by decide) (ok_str _) (okFields_cons (by decide) (ok_nat _)
      (okFields_cons (by decide) (ok_list (dbgConstructs_ok constructs)) (okFields_cons (by decide) (ok_list (ok_map ok_int _)) okFields_nil))))
  | .ref t => by rw [ValueTypeU.dbg, Dbg.Ok]; exact ⟨by decide, t.dbg_ok⟩
  | .abstract name => by rw [ValueTypeU.dbg, Dbg.Ok]; exact ⟨by decide, ok_str _⟩
  | .null => by rw [ValueTypeU.dbg, Dbg.Ok]; decide
  | .void => by rw [ValueTypeU.dbg, Dbg.Ok]; decide
theorem ObjField.dbg_ok : ∀ f : ObjField, f.dbg.Ok
  | ⟨name, hashedName, t⟩ => by
    rw [ObjField.dbg]
    exact ok_struct (by decide) (okFields_cons (by decide) (ok_str _) (okFields_cons (by decide) (ok_nat _)
      (okFields_cons (by decide) t.dbg_ok okFields_nil)))
theorem EnumConstruct.dbg_ok : ∀ f : EnumConstruct, f.dbg.Ok
  | ⟨name, nparams, params, size, hasptr, offsets⟩ => by
    rw [EnumConstruct.dbg]
    exact ok_struct (by decide) (okFields_cons (by decide) (ok_str _) (okFields_cons (by decide) (ok_nat _)
      (okFields_cons (by decide) (ok_list (dbgTypes_ok params)) (okFields_cons (by decide) (ok_nat _)
        (okFields_cons (by decide) (ok_bool _) (okFields_cons (by decide) (ok_list (ok_map ok_int _)) okFields_nil))))))
theorem dbgType?_ok : ∀ t : Option ValueType, (dbgType? t).Ok
  | none => by rw [dbgType?, Dbg.Ok]; decide
  | some t => by rw [dbgType?, Dbg.Ok]; exact ⟨by decide, t.dbg_ok⟩
theorem dbgTypes_ok : ∀ l : List ValueType, okItems (dbgTypes l)
  | [] => by rw [dbgTypes, okItems]; trivial
  | t :: l => by rw [dbgTypes, okItems]; exact ⟨t.dbg_ok, dbgTypes_ok l⟩
theorem dbgFields_ok : ∀ l : List ObjField, okItems (dbgFields l)
  | [] => by rw [dbgFields, okItems]; trivial
  | t :: l => by rw [dbgFields, okItems]; exact ⟨t.dbg_ok, dbgFields_ok l⟩
theorem dbgConstructs_ok : ∀ l : List EnumConstruct, okItems (dbgConstructs l)
  | [] => by rw [dbgConstructs, okItems]; trivial
  | t :: l => by rw [dbgConstructs, okItems]; exact ⟨t.dbg_ok, dbgConstructs_ok l⟩
end

mutual
theorem HLFunction.dbg_ok : ∀ f : HLFunction, f.dbg.Ok
  | ⟨t, findex, nregs, nops, rf, regs, ops, debug, obj, field⟩ => by
    rw [HLFunction.dbg]
    exact ok_struct (by decide) (okFields_cons (by decide) t.dbg_ok (okFields_cons (by decide) (ok_nat _) (okFields_cons (by decide) (ok_nat _)
      (okFields_cons (by decide) (ok_nat _) (okFields_cons (by decide) (ok_nat _) (okFields_cons (by decide) (ok_list (dbgTypes_ok regs))
        (okFields_cons (by decide) (ok_list (ok_map Opcode.dbg_ok _)) (okFields_cons (by decide) (ok_list (ok_map ok_int _))
          (okFields_cons (by decide) (ok_opt ValueTypeU.dbg_ok _) (okFields_cons (by decide) (dbgField?_ok field) okFields_nil))))))))))
theorem dbgField?_ok : ∀ f : Option FuncField, (dbgField? f).Ok
  | none => by rw [dbgField?, Dbg.Ok]; decide
  | some ⟨name, rf⟩ => by
    rw [dbgField?, Dbg.Ok]
    exact ⟨by decide, ok_struct (by decide) (okFields_cons (by decide) (ok_str _) (okFields_cons (by decide) (dbgFunction?_ok rf) okFields_nil))⟩
theorem dbgFunction?_ok : ∀ f : Option HLFunction, (dbgFunction? f).Ok
  | none => by rw [dbgFunction?, Dbg.Ok]; decide
  | some f => by rw [dbgFunction?, Dbg.Ok]; exact ⟨by decide, f.dbg_ok⟩
end

/-! ## Values can be read from their trees -/

theorem AreTexts.nil : AreTexts [] := fun _ h => by cases h
theorem AreTexts.append {l m : List Str} : AreTexts (l ++ m) ↔ AreTexts l ∧ AreTexts m := by
  unfold AreTexts
  simp only [List.mem_append]
  exact ⟨fun h => ⟨fun s hs => h s (.inl hs), fun s hs => h s (.inr hs)⟩, fun h s hs => hs.elim (h.1 s) (h.2 s)⟩
theorem AreTexts.cons {s : Str} {m : List Str} : AreTexts (s :: m) ↔ (∃ t, s = utf8 t) ∧ AreTexts m := by
  unfold AreTexts
  simp only [List.mem_cons]
  exact ⟨fun h => ⟨h s (.inl rfl), fun x hs => h x (.inr hs)⟩, fun h x hs => hs.elim (fun e => e ▸ h.1) (h.2 x)⟩
theorem AreTexts.mem {l : List Str} {s : Str} (h : AreTexts l) (hs : s ∈ l) : ∃ t, s = utf8 t := h s hs

mutual
theorem ValueType.dbg_inj : ∀ (a b : ValueType), AreTexts (stringsIn a) → AreTexts (stringsIn b) → a.dbg = b.dbg → a = b
  | ⟨u, a, t, k⟩, ⟨u', a', t', k'⟩, ha, hb, h => by
    rw [stringsIn, AreTexts.append, AreTexts.append] at ha hb
    simp only [ValueType.dbg, Dbg.struct.injEq, List.cons.injEq, DbgField.mk.injEq, true_and, and_true] at h
    obtain ⟨h1, h2, h3, h4⟩ := h
    rw [ValueTypeU.dbg_inj u u' ha.1.1 hb.1.1 h1, dbgType?_inj t t' ha.2 hb.2 h3, TypeKind.dbg_inj h4,
      dbgOpt_inj (fun x y hx hy => dbgStr_inj (AreTexts.mem ha.1.2 (by rw [hx]; simp)) (AreTexts.mem hb.1.2 (by rw [hy]; simp))) h2]
theorem ValueTypeU.dbg_inj : ∀ (a b : ValueTypeU), AreTexts (stringsInU a) → AreTexts (stringsInU b) → a.dbg = b.dbg → a = b
  | .func a n r, b, ha, hb, h => by
    cases b <;> simp only [ValueTypeU.dbg, Dbg.struct.injEq, List.cons.injEq, DbgField.mk.injEq, true_and, and_true, Dbg.list.injEq, reduceCtorEq,
      Char.reduceEq, false_and, and_false] at h
    rw [stringsInU, AreTexts.append] at ha hb
    rw [dbgTypes_inj a _ ha.1 hb.1 h.1, dbgNat_inj h.2.1, ValueType.dbg_inj r _ ha.2 hb.2 h.2.2]
  | .obj n s f nf np nb p bs g r, b, ha, hb, h => by
    cases b <;> simp only [ValueTypeU.dbg, Dbg.struct.injEq, List.cons.injEq, DbgField.mk.injEq, true_and, and_true, Dbg.list.injEq, reduceCtorEq,
      Char.reduceEq, false_and, and_false] at h
    simp only [stringsInU, List.cons_append, AreTexts.cons, AreTexts.append] at ha hb
    obtain ⟨h1, h2, h3, h4, h5, h6, h7, h8, h9, h10⟩ := h
    rw [dbgStr_inj ha.1 hb.1 h1, ValueType.dbg_inj s _ ha.2.1.1 hb.2.1.1 h2, dbgFields_inj f _ ha.2.1.2 hb.2.1.2 h3, dbgNat_inj h4, dbgNat_inj h5,
      dbgNat_inj h6, map_inj (fun x hx y hy => ObjProto.dbg_inj (AreTexts.mem ha.2.2 (List.mem_map_of_mem hx)) (AreTexts.mem hb.2.2 (List.mem_map_of_mem hy))) h7, natList_inj h8, intList_inj h9,
      dbgOpt_inj (fun _ _ _ _ _ => rfl) h10]
  | .virt n f, b, ha, hb, h => by
    cases b <;> simp only [ValueTypeU.dbg, Dbg.struct.injEq, List.cons.injEq, DbgField.mk.injEq, true_and, and_true, Dbg.list.injEq, reduceCtorEq,
      Char.reduceEq, false_and, and_false] at h
    rw [stringsInU] at ha hb
    rw [dbgNat_inj h.1, dbgFields_inj f _ ha hb h.2]
  | .enum n k c g, b, ha, hb, h => by
    cases b <;> simp only [ValueTypeU.dbg, Dbg.struct.injEq, List.cons.injEq, DbgField.mk.injEq, true_and, and_true, Dbg.list.injEq, reduceCtorEq,
      Char.reduceEq, false_and, and_false] at h
    simp only [stringsInU, AreTexts.cons] at ha hb
    rw [dbgStr_inj ha.1 hb.1 h.1, dbgNat_inj h.2.1, dbgConstructs_inj c _ ha.2 hb.2 h.2.2.1, intList_inj h.2.2.2]
  | .ref t, b, ha, hb, h => by
    cases b <;> simp only [ValueTypeU.dbg, Dbg.tuple.injEq, List.cons.injEq, true_and, reduceCtorEq, Char.reduceEq, false_and, and_false] at h
    rw [stringsInU] at ha hb
    rw [ValueType.dbg_inj t _ ha hb h]
  | .abstract n, b, ha, hb, h => by
    cases b <;> simp only [ValueTypeU.dbg, Dbg.tuple.injEq, List.cons.injEq, true_and, reduceCtorEq, Char.reduceEq, false_and, and_false] at h
    simp only [stringsInU, AreTexts.cons] at ha hb
    rw [dbgStr_inj ha.1 hb.1 h]
  | .null, b, ha, hb, h => by
    cases b <;> simp only [ValueTypeU.dbg, Dbg.atom.injEq, List.cons.injEq, reduceCtorEq, Char.reduceEq, false_and, and_false] at h <;> rfl
  | .void, b, ha, hb, h => by
    cases b <;> simp only [ValueTypeU.dbg, Dbg.atom.injEq, List.cons.injEq, reduceCtorEq, Char.reduceEq, false_and, and_false] at h <;> rfl
theorem ObjField.dbg_inj : ∀ (a b : ObjField), AreTexts (a.name :: stringsIn a.t) → AreTexts (b.name :: stringsIn b.t) → a.dbg = b.dbg → a = b
  | ⟨n, hn, t⟩, ⟨n', hn', t'⟩, ha, hb, h => by
    rw [AreTexts.cons] at ha hb
    simp only [ObjField.dbg, Dbg.struct.injEq, List.cons.injEq, DbgField.mk.injEq, true_and, and_true] at h
    rw [dbgStr_inj (a := n) (b := n') ha.1 hb.1 h.1, dbgHash_inj h.2.1, ValueType.dbg_inj t t' ha.2 hb.2 h.2.2]
theorem EnumConstruct.dbg_inj : ∀ (a b : EnumConstruct), AreTexts (a.name :: stringsInTypes a.params) → AreTexts (b.name :: stringsInTypes b.params) → a.dbg = b.dbg → a = b
  | ⟨n, k, p, s, hp, o⟩, ⟨n', k', p', s', hp', o'⟩, ha, hb, h => by
    rw [AreTexts.cons] at ha hb
    simp only [EnumConstruct.dbg, Dbg.struct.injEq, List.cons.injEq, DbgField.mk.injEq, true_and, and_true, Dbg.list.injEq] at h
    obtain ⟨h1, h2, h3, h4, h5, h6⟩ := h
    rw [dbgStr_inj (a := n) (b := n') ha.1 hb.1 h1, dbgNat_inj h2, dbgTypes_inj p p' ha.2 hb.2 h3, dbgNat_inj h4, dbgBool_inj h5, intList_inj h6]
theorem dbgType?_inj : ∀ (a b : Option ValueType), AreTexts (stringsInOpt a) → AreTexts (stringsInOpt b) → dbgType? a = dbgType? b → a = b
  | none, b, _, _, h => by
    cases b with
    | none => rfl
    | some b => simp only [dbgType?, reduceCtorEq] at h
  | some a, b, ha, hb, h => by
    cases b with
    | none => simp only [dbgType?, reduceCtorEq] at h
    | some b =>
      simp only [dbgType?, Dbg.tuple.injEq, true_and] at h
      rw [stringsInOpt] at ha hb
      rw [ValueType.dbg_inj a b ha hb h]
theorem dbgTypes_inj : ∀ (a b : List ValueType), AreTexts (stringsInTypes a) → AreTexts (stringsInTypes b) → dbgTypes a = dbgTypes b → a = b
  | [], b, _, _, h => by
    cases b with
    | nil => rfl
    | cons => simp only [dbgTypes, reduceCtorEq] at h
  | t :: l, b, ha, hb, h => by
    cases b with
    | nil => simp only [dbgTypes, reduceCtorEq] at h
    | cons t' l' =>
      simp only [dbgTypes, List.cons.injEq] at h
      rw [stringsInTypes, AreTexts.append] at ha hb
      rw [ValueType.dbg_inj t t' ha.1 hb.1 h.1, dbgTypes_inj l l' ha.2 hb.2 h.2]
theorem dbgFields_inj : ∀ (a b : List ObjField), AreTexts (stringsInFields a) → AreTexts (stringsInFields b) → dbgFields a = dbgFields b → a = b
  | [], b, _, _, h => by
    cases b with
    | nil => rfl
    | cons => simp only [dbgFields, reduceCtorEq] at h
  | ⟨n, hn, t⟩ :: l, b, ha, hb, h => by
    cases b with
    | nil => simp only [dbgFields, reduceCtorEq] at h
    | cons t' l' =>
      obtain ⟨n', hn', t'⟩ := t'
      simp only [dbgFields, List.cons.injEq] at h
      rw [stringsInFields, AreTexts.append] at ha hb
      rw [ObjField.dbg_inj ⟨n, hn, t⟩ _ ha.1 hb.1 h.1, dbgFields_inj l l' ha.2 hb.2 h.2]
theorem dbgConstructs_inj : ∀ (a b : List EnumConstruct), AreTexts (stringsInConstructs a) → AreTexts (stringsInConstructs b) → dbgConstructs a = dbgConstructs b → a = b
  | [], b, _, _, h => by
    cases b with
    | nil => rfl
    | cons => simp only [dbgConstructs, reduceCtorEq] at h
  | ⟨n, k, p, s, hp, o⟩ :: l, b, ha, hb, h => by
    cases b with
    | nil => simp only [dbgConstructs, reduceCtorEq] at h
    | cons t' l' =>
      obtain ⟨n', k', p', s', hp', o'⟩ := t'
      simp only [dbgConstructs, List.cons.injEq] at h
      rw [stringsInConstructs, AreTexts.append] at ha hb
      rw [EnumConstruct.dbg_inj ⟨n, k, p, s, hp, o⟩ _ ha.1 hb.1 h.1, dbgConstructs_inj l l' ha.2 hb.2 h.2]
end

mutual
theorem HLFunction.dbg_inj : ∀ (a b : HLFunction), AreTexts (stringsInFunction a) → AreTexts (stringsInFunction b) → a.dbg = b.dbg → a = b
  | ⟨t, fi, nr, no, rf, regs, ops, debug, obj, field⟩, ⟨t', fi', nr', no', rf', regs', ops', debug', obj', field'⟩, ha, hb, h => by
    simp only [stringsInFunction, AreTexts.append] at ha hb
    simp only [HLFunction.dbg, Dbg.struct.injEq, List.cons.injEq, DbgField.mk.injEq, true_and, and_true, Dbg.list.injEq] at h
    obtain ⟨h1, h2, h3, h4, h5, h6, h7, h8, h9, h10⟩ := h
    obtain ⟨⟨⟨a1, a2⟩, a3⟩, a4⟩ := ha
    obtain ⟨⟨⟨b1, b2⟩, b3⟩, b4⟩ := hb
    rw [ValueType.dbg_inj t t' a1 b1 h1, dbgNat_inj h2, dbgNat_inj h3, dbgNat_inj h4, dbgHash_inj h5, dbgTypes_inj regs regs' a2 b2 h6,
      map_inj (fun _ _ _ _ => Opcode.dbg_inj) h7, intList_inj h8, dbgField?_inj field field' a4 b4 h10]
    congr 1
    refine dbgOpt_inj (fun x y hx hy => ?_) h9
    cases hx
    cases hy
    exact ValueTypeU.dbg_inj _ _ a3 b3
theorem dbgField?_inj : ∀ (a b : Option FuncField), AreTexts (stringsInFuncField a) → AreTexts (stringsInFuncField b) → dbgField? a = dbgField? b → a = b
  | none, b, _, _, h => by
    cases b with
    | none => rfl
    | some b => obtain ⟨n, rf⟩ := b; simp only [dbgField?, reduceCtorEq] at h
  | some ⟨n, rf⟩, b, ha, hb, h => by
    cases b with
    | none => simp only [dbgField?, reduceCtorEq] at h
    | some b =>
      obtain ⟨n', rf'⟩ := b
      simp only [dbgField?, Dbg.tuple.injEq, Dbg.struct.injEq, List.cons.injEq, DbgField.mk.injEq, true_and, and_true] at h
      simp only [stringsInFuncField, AreTexts.cons] at ha hb
      rw [dbgStr_inj ha.1 hb.1 h.1, dbgFunction?_inj rf rf' ha.2 hb.2 h.2]
theorem dbgFunction?_inj : ∀ (a b : Option HLFunction), AreTexts (stringsInFunction? a) → AreTexts (stringsInFunction? b) → dbgFunction? a = dbgFunction? b → a = b
  | none, b, _, _, h => by
    cases b with
    | none => rfl
    | some b => simp only [dbgFunction?, reduceCtorEq] at h
  | some a, b, ha, hb, h => by
    cases b with
    | none => simp only [dbgFunction?, reduceCtorEq] at h
    | some b =>
      simp only [dbgFunction?, Dbg.tuple.injEq, true_and] at h
      rw [stringsInFunction?] at ha hb
      rw [HLFunction.dbg_inj a b ha hb h]
end

/-! ## Length -/

mutual
theorem ValueType.dbg_length (pr : Char → Bool) : ∀ t : ValueType, nodes t ≤ (t.dbg.text pr).length
  | ⟨u, a, t, k⟩ => by
    have := ValueTypeU.dbg_length pr u
    have := dbgType?_length pr t
    simp only [nodes, ValueType.dbg, Dbg.text, DbgField.text, restFields, List.length_append, List.length_cons, List.length_nil]
    omega
theorem ValueTypeU.dbg_length (pr : Char → Bool) : ∀ t : ValueTypeU, nodesU t ≤ (t.dbg.text pr).length
  | .func args nargs ret => by
    have := dbgTypes_length pr args
    have := ValueType.dbg_length pr ret
    simp only [nodesU, ValueTypeU.dbg, Dbg.text, DbgField.text, restFields, List.length_append, List.length_cons, List.length_nil]
    omega
  | .obj name superType fields nfields nproto nbindings proto bindings globalValue rt => by
    have := dbgFields_length pr fields
    have := ValueType.dbg_length pr superType
    simp only [nodesU, ValueTypeU.dbg, Dbg.text, DbgField.text, restFields, List.length_append, List.length_cons, List.length_nil]
    omega
  | .virt nfields fields => by
    have := dbgFields_length pr fields
    simp only [nodesU, ValueTypeU.dbg, Dbg.text, DbgField.text, restFields, List.length_append, List.length_cons, List.length_nil]
    omega
  | .enum name nconstructs constructs globalValue => by
    have := dbgConstructs_length pr constructs
    simp only [nodesU, ValueTypeU.dbg, Dbg.text, DbgField.text, restFields, List.length_append, List.length_cons, List.length_nil]
    omega
  | .ref t => by
    have := ValueType.dbg_length pr t
    simp only [nodesU, ValueTypeU.dbg, Dbg.text, List.length_append, List.length_cons, List.length_nil]
    omega
  | .abstract name => by rw [nodesU]; omega
  | .null => by rw [nodesU]; omega
  | .void => by rw [nodesU]; omega
theorem dbgType?_length (pr : Char → Bool) : ∀ t : Option ValueType, nodesOpt t ≤ ((dbgType? t).text pr).length
  | none => by rw [nodesOpt]; omega
  | some t => by
    have := ValueType.dbg_length pr t
    simp only [nodesOpt, dbgType?, Dbg.text, List.length_append, List.length_cons, List.length_nil]
    omega
theorem dbgTypes_rest (pr : Char → Bool) : ∀ l : List ValueType, nodesList l ≤ (restItems pr (dbgTypes l)).length
  | [] => by rw [nodesList]; omega
  | t :: l => by
    have := ValueType.dbg_length pr t
    have := dbgTypes_rest pr l
    simp only [nodesList, dbgTypes, restItems, List.length_append, List.length_cons, List.length_nil]
    omega
theorem dbgTypes_length (pr : Char → Bool) : ∀ l : List ValueType, nodesList l ≤ ((Dbg.list (dbgTypes l)).text pr).length
  | [] => by rw [nodesList]; omega
  | t :: l => by
    have := ValueType.dbg_length pr t
    have := dbgTypes_rest pr l
    simp only [nodesList, dbgTypes, Dbg.text, List.length_append, List.length_cons, List.length_nil]
    omega
theorem dbgFields_rest (pr : Char → Bool) : ∀ l : List ObjField, nodesFields l ≤ (restItems pr (dbgFields l)).length
  | [] => by rw [nodesFields]; omega
  | ⟨n, hn, t⟩ :: l => by
    have := ValueType.dbg_length pr t
    have := dbgFields_rest pr l
    simp only [nodesFields, dbgFields, ObjField.dbg, Dbg.text, DbgField.text, restFields, restItems, List.length_append, List.length_cons, List.length_nil]
    omega
theorem dbgFields_length (pr : Char → Bool) : ∀ l : List ObjField, nodesFields l ≤ ((Dbg.list (dbgFields l)).text pr).length
  | [] => by rw [nodesFields]; omega
  | ⟨n, hn, t⟩ :: l => by
    have := ValueType.dbg_length pr t
    have := dbgFields_rest pr l
    simp only [nodesFields, dbgFields, ObjField.dbg, Dbg.text, DbgField.text, restFields, List.length_append, List.length_cons, List.length_nil]
    omega
theorem dbgConstructs_rest (pr : Char → Bool) : ∀ l : List EnumConstruct, nodesConstructs l ≤ (restItems pr (dbgConstructs l)).length
  | [] => by rw [nodesConstructs]; omega
  | ⟨n, k, p, s, hp, o⟩ :: l => by
    have := dbgTypes_length pr p
    have := dbgConstructs_rest pr l
    simp only [nodesConstructs, dbgConstructs, EnumConstruct.dbg, Dbg.text, DbgField.text, restFields, restItems, List.length_append, List.length_cons, List.length_nil]
    omega
theorem dbgConstructs_length (pr : Char → Bool) : ∀ l : List EnumConstruct, nodesConstructs l ≤ ((Dbg.list (dbgConstructs l)).text pr).length
  | [] => by rw [nodesConstructs]; omega
  | ⟨n, k, p, s, hp, o⟩ :: l => by
    have := dbgTypes_length pr p
    have := dbgConstructs_rest pr l
    simp only [nodesConstructs, dbgConstructs, EnumConstruct.dbg, Dbg.text, DbgField.text, restFields, List.length_append, List.length_cons, List.length_nil]
    omega
end

/-- The text of a function contains that of its type. -/
theorem HLFunction.dbg_length (pr : Char → Bool) (f : HLFunction) : nodes f.t ≤ (f.dbg.text pr).length := by
  obtain ⟨t, findex, nregs, nops, rf, regs, ops, debug, obj, field⟩ := f
  have := ValueType.dbg_length pr t
  simp only [HLFunction.dbg, Dbg.text, DbgField.text, restFields, List.length_append, List.length_cons, List.length_nil]
  omega

end Verif.Brass
