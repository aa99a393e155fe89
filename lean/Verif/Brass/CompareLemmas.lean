import Verif.Spec.HashWork

/-!
# How much one comparison of two types looks at
-/

namespace Verif.Brass

open Verif Verif.Brass.Spec

/-- A comparison with result `b` of values made up of `n` and `m` types: it looks at no more than either of them, and at all if they are equal. -/
structure Cmp (x : Bool × Nat) (b : Bool) (n m : Nat) : Prop where
  result : x.1 = b
  left : x.2 ≤ n
  right : x.2 ≤ m
  full : b = true → x.2 = n

namespace Cmp

theorem andThen {x y : Bool × Nat} {b b' : Bool} {n m n' m' : Nat} (h : Cmp x b n m) (h' : Cmp y b' n' m') : Cmp (andThen x y) (b && b') (n + n') (m + m') := by
  obtain ⟨h1, h2, h3, h4⟩ := h
  obtain ⟨k1, k2, k3, k4⟩ := h'
  obtain ⟨x, i⟩ := x
  obtain ⟨y, j⟩ := y
  simp only at h1 h2 h3 h4 k1 k2 k3 k4
  subst h1 k1
  cases x
  · exact ⟨rfl, by simp only [Brass.andThen]; simp; omega, by simp only [Brass.andThen]; simp; omega, by simp⟩
  · refine ⟨by simp [Brass.andThen], by simp [Brass.andThen]; omega, by simp [Brass.andThen]; omega, ?_⟩
    intro h
    simp only [Bool.true_and] at h
    have := h4 rfl
    have := k4 h
    simp [Brass.andThen]; omega

theorem plain (b : Bool) : Cmp (plain b) b 0 0 := ⟨rfl, Nat.le_refl _, Nat.le_refl _, fun _ => rfl⟩

theorem of_eq {x : Bool × Nat} {b b' : Bool} {n n' m m' : Nat} (h : Cmp x b n m) (hb : b = b') (hn : n = n') (hm : m = m') : Cmp x b' n' m' := by
  subst hb hn hm; exact h

/-- If the result is `false`, bounds may be larger. -/
theorem no {x : Bool × Nat} {n m n' m' : Nat} (h : Cmp x false n m) (hn : n ≤ n') (hm : m ≤ m') : Cmp x false n' m' :=
  ⟨h.1, Nat.le_trans h.2 hn, Nat.le_trans h.3 hm, fun e => nomatch e⟩

/-- The comparison of lengths in front of that of the elements. -/
theorem len {x : Bool × Nat} {b : Bool} {n m k k' : Nat} (h : Cmp x b n m) (hb : b = true → k = k') : Cmp (Brass.andThen (Brass.plain (k == k')) x) b n m := by
  have := (plain (k == k')).andThen h
  refine this.of_eq ?_ (Nat.zero_add _) (Nat.zero_add _)
  cases b
  · simp
  · simp [hb rfl]

end Cmp

theorem beqTypes_len : ∀ {a b : List ValueType}, beqTypes a b = true → a.length = b.length := fun h => by rw [(beqTypes_iff _ _).1 h]
theorem beqFields_len : ∀ {a b : List ObjField}, beqFields a b = true → a.length = b.length := fun h => by rw [(beqFields_iff _ _).1 h]
theorem beqConstructs_len : ∀ {a b : List EnumConstruct}, beqConstructs a b = true → a.length = b.length := fun h => by rw [(beqConstructs_iff _ _).1 h]

mutual
theorem ValueType.cmp : ∀ a b : ValueType, Cmp (a.compare b) (a.beq b) (nodes a) (nodes b)
  | ⟨u, a, t, k⟩, ⟨u', a', t', k'⟩ => by
    have h : Cmp (true, 1) true 1 1 := ⟨rfl, Nat.le_refl _, Nat.le_refl _, fun _ => rfl⟩
    have := h.andThen ((ValueTypeU.cmp u u').andThen ((Cmp.plain (a == a')).andThen ((compareOpt_cmp t t').andThen (Cmp.plain (k == k')))))
    unfold ValueType.compare
    refine this.of_eq ?_ ?_ ?_
    · simp [ValueType.beq, Bool.and_assoc]
    · simp [nodes]; omega
    · simp [nodes]; omega
theorem ValueTypeU.cmp : ∀ a b : ValueTypeU, Cmp (a.compare b) (a.beq b) (nodesU a) (nodesU b)
  | .func a n r, b => by
    cases b with
    | func a' n' r' =>
      unfold ValueTypeU.compare
      have h := ((compareTypes_cmp a a').andThen ((Cmp.plain (n == n')).andThen (ValueType.cmp r r')))
      refine (Cmp.len h ?_).of_eq ?_ ?_ ?_
      · intro e
        simp only [Bool.and_eq_true] at e
        exact beqTypes_len e.1
      · simp [ValueTypeU.beq, Bool.and_assoc]
      · simp [nodesU]
      · simp [nodesU]
    | _ => simp only [ValueTypeU.compare, ValueTypeU.beq]; exact (Cmp.plain false).no (Nat.zero_le _) (Nat.zero_le _)
  | .obj n s f nf np nb p b g r, b' => by
    cases b' with
    | obj n' s' f' nf' np' nb' p' b' g' r' =>
      unfold ValueTypeU.compare
      have h := (compareFields_cmp f f').andThen (Cmp.plain (nf == nf' && np == np' && nb == nb' && p == p' && b == b' && g == g' && r == r'))
      have h := Cmp.len (k := f.length) (k' := f'.length) h (by
        intro e
        simp only [Bool.and_eq_true] at e
        exact beqFields_len e.1)
      refine ((Cmp.plain (n == n')).andThen ((ValueType.cmp s s').andThen h)).of_eq ?_ ?_ ?_
      · simp [ValueTypeU.beq, Bool.and_assoc]
      · simp [nodesU]
      · simp [nodesU]
    | _ => simp only [ValueTypeU.compare, ValueTypeU.beq]; exact (Cmp.plain false).no (Nat.zero_le _) (Nat.zero_le _)
  | .virt n f, b => by
    cases b with
    | virt n' f' =>
      unfold ValueTypeU.compare
      have h := Cmp.len (k := f.length) (k' := f'.length) (compareFields_cmp f f') beqFields_len
      refine ((Cmp.plain (n == n')).andThen h).of_eq ?_ ?_ ?_
      · simp [ValueTypeU.beq]
      · simp [nodesU]
      · simp [nodesU]
    | _ => simp only [ValueTypeU.compare, ValueTypeU.beq]; exact (Cmp.plain false).no (Nat.zero_le _) (Nat.zero_le _)
  | .enum n k c g, b => by
    cases b with
    | enum n' k' c' g' =>
      unfold ValueTypeU.compare
      have h := Cmp.len (k := c.length) (k' := c'.length) ((compareConstructs_cmp c c').andThen (Cmp.plain (g == g'))) (by
        intro e
        simp only [Bool.and_eq_true] at e
        exact beqConstructs_len e.1)
      refine ((Cmp.plain (n == n' && k == k')).andThen h).of_eq ?_ ?_ ?_
      · simp [ValueTypeU.beq, Bool.and_assoc]
      · simp [nodesU]
      · simp [nodesU]
    | _ => simp only [ValueTypeU.compare, ValueTypeU.beq]; exact (Cmp.plain false).no (Nat.zero_le _) (Nat.zero_le _)
  | .ref t, b => by
    cases b with
    | ref t' => simp only [ValueTypeU.compare, ValueTypeU.beq, nodesU]; exact ValueType.cmp t t'
    | _ => simp only [ValueTypeU.compare, ValueTypeU.beq]; exact (Cmp.plain false).no (Nat.zero_le _) (Nat.zero_le _)
  | .abstract n, b => by
    cases b with
    | abstract n' => simp only [ValueTypeU.compare, ValueTypeU.beq, nodesU]; exact Cmp.plain _
    | _ => simp only [ValueTypeU.compare, ValueTypeU.beq]; exact (Cmp.plain false).no (Nat.zero_le _) (Nat.zero_le _)
  | .null, b => by
    cases b with
    | null => simp only [ValueTypeU.compare, ValueTypeU.beq, nodesU]; exact Cmp.plain _
    | _ => simp only [ValueTypeU.compare, ValueTypeU.beq]; exact (Cmp.plain false).no (Nat.zero_le _) (Nat.zero_le _)
  | .void, b => by
    cases b with
    | void => simp only [ValueTypeU.compare, ValueTypeU.beq, nodesU]; exact Cmp.plain _
    | _ => simp only [ValueTypeU.compare, ValueTypeU.beq]; exact (Cmp.plain false).no (Nat.zero_le _) (Nat.zero_le _)
theorem compareOpt_cmp : ∀ a b : Option ValueType, Cmp (compareOpt a b) (beqOpt a b) (nodesOpt a) (nodesOpt b)
  | none, none => by simp only [compareOpt, beqOpt, nodesOpt]; exact Cmp.plain _
  | none, some _ => by simp only [compareOpt, beqOpt, nodesOpt]; exact (Cmp.plain false).no (Nat.zero_le _) (Nat.zero_le _)
  | some _, none => by simp only [compareOpt, beqOpt, nodesOpt]; exact (Cmp.plain false).no (Nat.zero_le _) (Nat.zero_le _)
  | some a, some b => by simp only [compareOpt, beqOpt, nodesOpt]; exact ValueType.cmp a b
theorem compareTypes_cmp : ∀ a b : List ValueType, Cmp (compareTypes a b) (beqTypes a b) (nodesList a) (nodesList b)
  | [], [] => by simp only [compareTypes, beqTypes, nodesList]; exact Cmp.plain _
  | [], _ :: _ => by simp only [compareTypes, beqTypes, nodesList]; exact (Cmp.plain false).no (Nat.zero_le _) (Nat.zero_le _)
  | _ :: _, [] => by simp only [compareTypes, beqTypes, nodesList]; exact (Cmp.plain false).no (Nat.zero_le _) (Nat.zero_le _)
  | a :: l, b :: l' => by simp only [compareTypes, beqTypes, nodesList]; exact (ValueType.cmp a b).andThen (compareTypes_cmp l l')
theorem compareFields_cmp : ∀ a b : List ObjField, Cmp (compareFields a b) (beqFields a b) (nodesFields a) (nodesFields b)
  | [], [] => by simp only [compareFields, beqFields, nodesFields]; exact Cmp.plain _
  | [], _ :: _ => by simp only [compareFields, beqFields, nodesFields]; exact (Cmp.plain false).no (Nat.zero_le _) (Nat.zero_le _)
  | _ :: _, [] => by simp only [compareFields, beqFields, nodesFields]; exact (Cmp.plain false).no (Nat.zero_le _) (Nat.zero_le _)
  | ⟨n, h, t⟩ :: l, ⟨n', h', t'⟩ :: l' => by
    have := ((Cmp.plain (n == n' && h == h')).andThen (ValueType.cmp t t')).andThen (compareFields_cmp l l')
    rw [compareFields, ObjField.compare]
    refine this.of_eq ?_ ?_ ?_
    · simp [beqFields, ObjField.beq]
    · simp [nodesFields]
    · simp [nodesFields]
theorem compareConstructs_cmp : ∀ a b : List EnumConstruct, Cmp (compareConstructs a b) (beqConstructs a b) (nodesConstructs a) (nodesConstructs b)
  | [], [] => by simp only [compareConstructs, beqConstructs, nodesConstructs]; exact Cmp.plain _
  | [], _ :: _ => by simp only [compareConstructs, beqConstructs, nodesConstructs]; exact (Cmp.plain false).no (Nat.zero_le _) (Nat.zero_le _)
  | _ :: _, [] => by simp only [compareConstructs, beqConstructs, nodesConstructs]; exact (Cmp.plain false).no (Nat.zero_le _) (Nat.zero_le _)
  | ⟨n, k, p, s, h, o⟩ :: l, ⟨n', k', p', s', h', o'⟩ :: l' => by
    have e := Cmp.len (k := p.length) (k' := p'.length) ((compareTypes_cmp p p').andThen (Cmp.plain (s == s' && h == h' && o == o'))) (by
      intro e
      simp only [Bool.and_eq_true] at e
      exact beqTypes_len e.1)
    have := ((Cmp.plain (n == n' && k == k')).andThen e).andThen (compareConstructs_cmp l l')
    rw [compareConstructs, EnumConstruct.compare]
    refine this.of_eq ?_ ?_ ?_
    · simp [beqConstructs, EnumConstruct.beq, Bool.and_assoc]
    · simp [nodesConstructs]
    · simp [nodesConstructs]
end

end Verif.Brass
