import Verif.Brass.Lookups
import Verif.Brass.RequestLemmas
import Verif.Brass.CopyLemmas
import Verif.Spec.Lookups

/-!
# Which tables are copied by lookups
-/

namespace Verif.Brass

open Verif Verif.Brass.Spec

theorem L.bind_eq_ok {α β : Type} {x : L α} {f : α → L β} {s s'' : St} {b : β} {l : List TableCopy} (h : (x >>= f) s = (.ok b s'', l)) :
    ∃ a s' l1 l2, x s = (.ok a s', l1) ∧ f a s' = (.ok b s'', l2) ∧ l = l1 ++ l2 := by
  have h : L.bind x f s = (.ok b s'', l) := h
  unfold L.bind at h
  rcases hx : x s with ⟨o, l1⟩
  rw [hx] at h
  cases o with
  | err => cases h
  | panic => cases h
  | ok a s' =>
    simp only [Prod.mk.injEq] at h
    exact ⟨a, s', l1, _, rfl, Prod.ext h.1 rfl, h.2.symm⟩

theorem L.lift_eq_ok {α : Type} {x : M α} {s s' : St} {a : α} {l : List TableCopy} (h : L.lift x s = (.ok a s', l)) : x s = .ok a s' ∧ l = [] := by
  unfold L.lift at h
  cases h' : x s <;> rw [h'] at h <;> cases h
  exact ⟨rfl, rfl⟩

theorem Looking.ok {α : Type} {x : L α} {y : M α} (h : Looking x y) {s s' : St} {a : α} {l : List TableCopy} (hx : x s = (.ok a s', l)) : y s = .ok a s' := by
  rw [← h s, hx]

theorem Looking.run {α : Type} {x : L α} {y : M α} (h : Looking x y) {s s' : St} {a : α} (hy : y s = .ok a s') : x s = (.ok a s', (x s).2) :=
  Prod.ext ((h s).trans hy) rfl

@[simp] theorem typeTables_nil : typeTables [] = [] := rfl
@[simp] theorem stringTables_nil : stringTables [] = [] := rfl
@[simp] theorem cacheTables_nil : cacheTables [] = [] := rfl
@[simp] theorem typeTables_append (a b : List TableCopy) : typeTables (a ++ b) = typeTables a ++ typeTables b := List.filterMap_append
@[simp] theorem stringTables_append (a b : List TableCopy) : stringTables (a ++ b) = stringTables a ++ stringTables b := List.filterMap_append
@[simp] theorem cacheTables_append (a b : List TableCopy) : cacheTables (a ++ b) = cacheTables a ++ cacheTables b := List.filterMap_append

/-- What was copied while `decoder.code` went from `d` to `d'`: `nt` type tables, `nu` caches, `ns` string tables and one more for every entry
that the cache has gained. -/
structure Sum (d d' : Code) (l : List TableCopy) (nt ns nu : Nat) : Prop where
  code : d'.uncached = d.uncached
  types : typeTables l = List.replicate nt d.types.length
  count : (cacheTables l).length = nu
  bound : ∀ n ∈ cacheTables l, d.ustrings.length ≤ n ∧ n ≤ d'.ustrings.length
  strings : ∃ m, m ≤ nu ∧ d'.ustrings.length = d.ustrings.length + m ∧ stringTables l = List.replicate (ns + m) d.strings.length

theorem Sum.refl {d d' : Code} (h : d' = d) : Sum d d' [] 0 0 0 := by
  subst h
  exact ⟨rfl, rfl, rfl, by simp, 0, Nat.le_refl _, rfl, rfl⟩

theorem Sum.append {d d1 d2 : Code} {l1 l2 : List TableCopy} {a b c a' b' c' : Nat} (h1 : Sum d d1 l1 a b c) (h2 : Sum d1 d2 l2 a' b' c') :
    Sum d d2 (l1 ++ l2) (a + a') (b + b') (c + c') := by
  obtain ⟨m1, n1, e1, f1⟩ := h1.strings
  obtain ⟨m2, n2, e2, f2⟩ := h2.strings
  have ht : d1.uncached.types = d.uncached.types := by rw [h1.code]
  have hs : d1.uncached.strings = d.uncached.strings := by rw [h1.code]
  have ht : d1.types = d.types := ht
  have hs : d1.strings = d.strings := hs
  refine ⟨h2.code.trans h1.code, ?_, ?_, ?_, m1 + m2, by omega, by omega, ?_⟩
  · rw [typeTables_append, h1.types, h2.types, ht, List.replicate_append_replicate]
  · rw [cacheTables_append, List.length_append, h1.count, h2.count]
  · intro n hn
    rw [cacheTables_append] at hn
    rcases List.mem_append.1 hn with hn | hn
    · have := h1.bound n hn; omega
    · have := h2.bound n hn; omega
  · rw [stringTables_append, f1, f2, hs, List.replicate_append_replicate]
    congr 1; omega

/-- `R` says how many tables are copied. -/
def Summed {α : Type} (x : L α) (R : α → Nat → Nat → Nat → Prop) : Prop := ∀ s a s' l, x s = (.ok a s', l) → s'.errors = none →
  s.errors = none ∧ ∃ nt ns nu, R a nt ns nu ∧ Sum s.code s'.code l nt ns nu

/-- No table -/
def Zero {α : Type} (_ : α) (a b c : Nat) : Prop := a = 0 ∧ b = 0 ∧ c = 0

namespace Summed

variable {α β : Type}

theorem mono {x : L α} {R R' : α → Nat → Nat → Nat → Prop} (h : Summed x R) (hR : ∀ a t u v, R a t u v → R' a t u v) : Summed x R' := by
  intro s a s' l e he
  obtain ⟨h1, t, u, v, h2, h3⟩ := h s a s' l e he
  exact ⟨h1, t, u, v, hR _ _ _ _ h2, h3⟩

theorem bind {x : L α} {f : α → L β} {R : α → Nat → Nat → Nat → Prop} {R' : α → β → Nat → Nat → Nat → Prop} (hx : Summed x R) (hf : ∀ a, Summed (f a) (R' a)) :
    Summed (x >>= f) (fun b T U V => ∃ a t u v t' u' v', R a t u v ∧ R' a b t' u' v' ∧ T = t + t' ∧ U = u + u' ∧ V = v + v') := by
  intro s b s2 l e he
  obtain ⟨a, s1, l1, l2, h1, h2, rfl⟩ := L.bind_eq_ok e
  obtain ⟨e1, t', u', v', g1, g2⟩ := hf a _ _ _ _ h2 he
  obtain ⟨e0, t, u, v, g3, g4⟩ := hx _ _ _ _ h1 e1
  exact ⟨e0, _, _, _, ⟨a, t, u, v, t', u', v', g3, g1, rfl, rfl, rfl⟩, g4.append g2⟩

theorem lift {x : M α} (hg : Good x) (hp : Pres (fun c c' : Code => c' = c) x) : Summed (L.lift x) Zero := by
  intro s a s' l e he
  obtain ⟨h, rfl⟩ := L.lift_eq_ok e
  exact ⟨hg.none_of h he, 0, 0, 0, ⟨rfl, rfl, rfl⟩, .refl (hp _ _ _ h)⟩

theorem pure (a : α) : Summed (Pure.pure a : L α) (fun b t u v => b = a ∧ Zero b t u v) := by
  intro s b s' l e he
  cases e
  exact ⟨he, 0, 0, 0, ⟨rfl, rfl, rfl, rfl⟩, .refl rfl⟩

theorem ite {b : Prop} [Decidable b] {x y : L α} {R : α → Nat → Nat → Nat → Prop} (hx : Summed x R) (hy : Summed y R) : Summed (if b then x else y) R := by
  split <;> assumption

/-- A loop whose rounds add to three measures as many as they copy. -/
theorem forRange {f : Nat → β → L β} (mt mu : β → Nat) (hf : ∀ i b, Summed (f i b) (fun b' t u v => mt b' = mt b + t ∧ u = 0 ∧ mu b' = mu b + v)) :
    ∀ (n a : Nat) (b : β), Summed (L.forRange f a n b) (fun b' t u v => mt b' = mt b + t ∧ u = 0 ∧ mu b' = mu b + v)
  | 0, _, b => (pure b).mono fun b' t u v ⟨h, ht, hu, hv⟩ => by subst h ht hu hv; exact ⟨rfl, rfl, rfl⟩
  | n + 1, a, b => (bind (hf a b) fun b => forRange mt mu hf n (a + 1) b).mono fun b' t u v ⟨_, _, _, _, _, _, _, h1, h2, h3, h4, h5⟩ => by
    obtain ⟨h6, h7, h8⟩ := h1
    obtain ⟨h9, h10, h11⟩ := h2
    exact ⟨by omega, by omega, by omega⟩

/-- If the reader ends without a recorded error, it did not record one. -/
theorem setError {k : DecodeErrorKind} {f : Unit → L α} {R : α → Nat → Nat → Nat → Prop}
    (hg : ∀ s a s' l, f () s = (.ok a s', l) → s'.errors = none → s.errors = none) : Summed (L.lift (M.setError k) >>= f) R := by
  intro s a s' l e he
  obtain ⟨_, s1, l1, l2, h1, h2, rfl⟩ := L.bind_eq_ok e
  cases h1
  have := hg _ _ _ _ h2 he
  cases this

/-! ## Lookups -/

theorem copy_types {d : Code} {x : M α} (hg : Good x) (hp : Pres (fun c c' : Code => c' = c) x) {s : St} (hd : d.types.length = s.code.types.length) {a : α} {s' : St}
    {l : List TableCopy} (h : (L.copy (.types d.types.length) >>= fun _ => L.lift x) s = (.ok a s', l)) (he : s'.errors = none) :
    s.errors = none ∧ Sum s.code s'.code l 1 0 0 := by
  obtain ⟨_, s1, l1, l2, h1, h2, rfl⟩ := L.bind_eq_ok h
  cases h1
  obtain ⟨m2, rfl⟩ := L.lift_eq_ok h2
  have hc := hp _ _ _ m2
  refine ⟨hg.none_of m2 he, ?_⟩
  rw [hc]
  exact ⟨rfl, by simp [typeTables, hd], by simp [cacheTables], by simp [cacheTables], 0, Nat.zero_le _, rfl, by simp [stringTables]⟩

theorem getType : Summed getTypeL (fun _ t u v => t = 1 ∧ u = 0 ∧ v = 0) := by
  intro s a s' l e he
  obtain ⟨i, s1, l1, l2, h1, h2, rfl⟩ := L.bind_eq_ok e
  obtain ⟨m1, rfl⟩ := L.lift_eq_ok h1
  obtain ⟨d, s2, l3, l4, h3, h4, rfl⟩ := L.bind_eq_ok h2
  obtain ⟨m2, rfl⟩ := L.lift_eq_ok h3
  cases m2
  obtain ⟨bad, s3, l5, l6, h5, h6, rfl⟩ := L.bind_eq_ok h4
  obtain ⟨m3, rfl⟩ := L.lift_eq_ok h5
  have c1 : s1.code = s.code := Pres.index composes_eq _ _ _ m1
  have c3 : s3.code = s1.code := Pres.badIndex composes_eq _ _ _ m3
  have key : s3.errors = none ∧ Sum s3.code s'.code l6 1 0 0 := by
    split at h6
    · exfalso
      obtain ⟨_, s4, l7, l8, h7, h8, rfl⟩ := L.bind_eq_ok h6
      obtain ⟨m4, rfl⟩ := L.lift_eq_ok h7
      cases m4
      have := (copy_types (.unwrapOpt _) (Pres.unwrapOpt composes_eq) (by show s1.code.types.length = s3.code.types.length; rw [c3]) h8 he).1
      cases this
    · exact copy_types (.unwrapOpt _) (Pres.unwrapOpt composes_eq) (by rw [c3]) h6 he
  have e1 := (Good.badIndex _ _).none_of m3 key.1
  refine ⟨Good.index.none_of m1 e1, 1, 0, 0, ⟨rfl, rfl, rfl⟩, ?_⟩
  have := key.2
  rw [c3, c1] at this
  simpa using this

theorem readString : Summed readStringL (fun _ t u v => t = 0 ∧ u = 1 ∧ v = 0) := by
  intro s a s' l e he
  obtain ⟨i, s1, l1, l2, h1, h2, rfl⟩ := L.bind_eq_ok e
  obtain ⟨m1, rfl⟩ := L.lift_eq_ok h1
  obtain ⟨d, s2, l3, l4, h3, h4, rfl⟩ := L.bind_eq_ok h2
  obtain ⟨m2, rfl⟩ := L.lift_eq_ok h3
  cases m2
  obtain ⟨bad, s3, l5, l6, h5, h6, rfl⟩ := L.bind_eq_ok h4
  obtain ⟨m3, rfl⟩ := L.lift_eq_ok h5
  have c1 : s1.code = s.code := Pres.index composes_eq _ _ _ m1
  have c3 : s3.code = s1.code := Pres.badIndex composes_eq _ _ _ m3
  have key : s3.errors = none ∧ s'.code = s3.code ∧ l6 = [.strings s1.code.strings.length] := by
    split at h6
    · exfalso
      obtain ⟨_, s4, l7, l8, h7, h8, rfl⟩ := L.bind_eq_ok h6
      obtain ⟨m4, rfl⟩ := L.lift_eq_ok h7
      cases m4
      cases h8
      cases he
    · obtain ⟨_, s4, l7, l8, h7, h8, rfl⟩ := L.bind_eq_ok h6
      cases h7
      obtain ⟨m4, rfl⟩ := L.lift_eq_ok h8
      exact ⟨(Good.unwrapOpt _).none_of m4 he, (Pres.unwrapOpt composes_eq) _ _ _ m4, rfl⟩
  have e1 := (Good.badIndex _ _).none_of m3 key.1
  refine ⟨Good.index.none_of m1 e1, 0, 1, 0, ⟨rfl, rfl, rfl⟩, ?_⟩
  obtain ⟨-, k2, rfl⟩ := key
  rw [k2, c3, c1]
  exact ⟨rfl, by simp [typeTables], by simp [cacheTables], by simp [cacheTables], 0, Nat.zero_le _, rfl, by simp [stringTables]⟩

theorem getUstring_sum {d d' : Code} {i : Nat} {r : Str} (h : Brass.getUstring d i = .ret (r, d')) {s s' : St} {u : Unit} {l : List TableCopy}
    (hl : getUstringCopies d i s = (.ok u s', l)) : s' = s ∧ Sum d d' l 0 0 1 := by
  unfold Brass.getUstring at h
  unfold getUstringCopies at hl
  obtain ⟨_, s1, l1, l2, h1, h2, rfl⟩ := L.bind_eq_ok hl
  cases h1
  have hlen : ∀ (x : Option Str), d.ustrings[i]? = some none → (d.ustrings.insertIdx i x).length = d.ustrings.length + 1 := by
    intro x hx
    have := (List.getElem?_eq_some_iff.1 hx).1
    rw [List.length_insertIdx_of_le_length (by omega)]
  split at h
  · cases h
  · next hn =>
    rw [hn] at h2
    cases h2
    have : d'.uncached = d.uncached ∧ d'.ustrings.length = d.ustrings.length + 1 := by
      split at h <;> cases h <;> exact ⟨rfl, hlen _ hn⟩
    refine ⟨rfl, this.1, by simp [typeTables], by simp [cacheTables], ?_, 1, Nat.le_refl _, this.2, by simp [stringTables]⟩
    intro n hn'
    simp [cacheTables] at hn'
    omega
  · next hn =>
    rw [hn] at h2
    cases h2
    cases h
    refine ⟨rfl, rfl, by simp [typeTables], by simp [cacheTables], ?_, 0, Nat.zero_le _, rfl, by simp [stringTables]⟩
    intro n hn'
    simp [cacheTables] at hn'
    omega

theorem readUstring : Summed readUstringL (fun _ t u v => t = 0 ∧ u = 0 ∧ v = 1) := by
  intro s a s' l e he
  obtain ⟨i, s1, l1, l2, h1, h2, rfl⟩ := L.bind_eq_ok e
  obtain ⟨m1, rfl⟩ := L.lift_eq_ok h1
  obtain ⟨d, s2, l3, l4, h3, h4, rfl⟩ := L.bind_eq_ok h2
  obtain ⟨m2, rfl⟩ := L.lift_eq_ok h3
  cases m2
  obtain ⟨bad, s3, l5, l6, h5, h6, rfl⟩ := L.bind_eq_ok h4
  obtain ⟨m3, rfl⟩ := L.lift_eq_ok h5
  have c1 : s1.code = s.code := Pres.index composes_eq _ _ _ m1
  have c3 : s3.code = s1.code := Pres.badIndex composes_eq _ _ _ m3
  have key : s3.errors = none ∧ Sum s1.code s'.code l6 0 0 1 := by
    split at h6
    · exfalso
      obtain ⟨_, s4, l7, l8, h7, h8, rfl⟩ := L.bind_eq_ok h6
      obtain ⟨m4, rfl⟩ := L.lift_eq_ok h7
      cases m4
      cases h8
      cases he
    · obtain ⟨_, s4, l7, l8, h7, h8, rfl⟩ := L.bind_eq_ok h6
      rcases hg : Brass.getUstring s1.code i.toNat with ⟨r, c⟩ | _ <;> rw [hg] at h8
      · obtain ⟨rfl, hs⟩ := getUstring_sum hg h7
        obtain ⟨_, s5, l9, l10, h9, h10, rfl⟩ := L.bind_eq_ok h8
        cases h9
        cases h10
        exact ⟨he, by simpa using hs⟩
      · cases h8
  have e1 := (Good.badIndex _ _).none_of m3 key.1
  refine ⟨Good.index.none_of m1 e1, 0, 0, 1, ⟨rfl, rfl, rfl⟩, ?_⟩
  have := key.2
  rw [c1] at this
  simpa using this

theorem index : Summed (L.lift index) Zero := lift .index (Pres.index composes_eq)
theorem uindex : Summed (L.lift uindex) Zero := lift .uindex (Pres.uindex composes_eq)

/-! ## Types -/

theorem insertAt {f : α → Nat} {g : α → Nat} {x : L α} (v : List α) (i : Nat) (hx : Summed x (fun a t u w => t = f a ∧ u = 0 ∧ w = g a)) :
    Summed (x >>= fun a => L.lift (M.insertAt v i a)) (fun v' t u w => (v'.map f).sum = (v.map f).sum + t ∧ u = 0 ∧ (v'.map g).sum = (v.map g).sum + w) := by
  have hsum : ∀ (h : α → Nat) (a : α) (v : List α) (i : Nat), i ≤ v.length → ((v.insertIdx i a).map h).sum = (v.map h).sum + h a := by
    intro h a v
    induction v with
    | nil => intro i hi; cases i with
      | zero => simp
      | succ i => simp at hi
    | cons b v ih => intro i hi; cases i with
      | zero => simp; omega
      | succ i =>
        have := ih i (by simpa using hi)
        simp only [List.insertIdx_succ_cons, List.map_cons, List.sum_cons]
        omega
  intro s a s' l e he
  obtain ⟨b, s1, l1, l2, h1, h2, rfl⟩ := L.bind_eq_ok e
  obtain ⟨m2, rfl⟩ := L.lift_eq_ok h2
  have e1 := (Good.insertAt v i b).none_of m2 he
  obtain ⟨e0, t, u, w, ⟨rfl, rfl, rfl⟩, k⟩ := hx _ _ _ _ h1 e1
  unfold M.insertAt at m2
  split at m2
  · next hi =>
    cases m2
    exact ⟨e0, _, _, _, ⟨hsum f b v i hi, rfl, hsum g b v i hi⟩, by simpa using k⟩
  · cases m2

theorem sum_const (n : Nat) : ∀ v : List α, (v.map fun _ => n).sum = v.length * n
  | [] => by simp
  | _ :: v => by rw [List.map_cons, List.sum_cons, sum_const n v, List.length_cons, Nat.succ_mul]; omega

theorem readTypeRefs (n : Nat) : Summed (readTypeRefsL n) (fun v t u w => t = v.length ∧ u = 0 ∧ w = 0) :=
  (forRange (f := fun i v => getTypeL >>= fun t => L.lift (M.insertAt v i t)) (fun v => (v.map fun _ => 1).sum) (fun v => (v.map fun _ => 0).sum)
    (fun i v => insertAt v i getType) n 0 []).mono fun v t u w h => by
      simp only [sum_const] at h
      simp at h
      omega

theorem readField : Summed readFieldL (fun _ t u w => t = 1 ∧ u = 0 ∧ w = 1) :=
  (bind readUstring fun _ => bind getType fun _ => pure _).mono
    fun _ t u v ⟨_, _, _, _, _, _, _, h1, ⟨_, _, _, _, _, _, _, h2, ⟨_, h3, h4, h5⟩, h6, h7, h8⟩, h9, h10, h11⟩ => by omega

theorem readFields (n : Nat) : Summed (readFieldsL n) (fun v t u w => t = v.length ∧ u = 0 ∧ w = v.length) :=
  (forRange (f := fun i v => readFieldL >>= fun t => L.lift (M.insertAt v i t)) (fun v => (v.map fun _ => 1).sum) (fun v => (v.map fun _ => 1).sum)
    (fun i v => insertAt v i readField) n 0 []).mono fun v t u w h => by
      simp only [sum_const] at h
      simp at h
      omega

theorem readProto : Summed readProtoL (fun _ t u w => t = 0 ∧ u = 0 ∧ w = 1) :=
  (bind readUstring fun _ => bind uindex fun _ => bind index fun _ => pure _).mono
    fun _ t u v ⟨_, _, _, _, _, _, _, h1, ⟨_, _, _, _, _, _, _, ⟨a1, a2, a3⟩, ⟨_, _, _, _, _, _, _, ⟨b1, b2, b3⟩, ⟨_, h3, h4, h5⟩, c1, c2, c3⟩, h6, h7, h8⟩, h9, h10, h11⟩ => by omega

theorem readProtos (n : Nat) : Summed (readProtosL n) (fun v t u w => t = 0 ∧ u = 0 ∧ w = v.length) :=
  (forRange (f := fun i v => readProtoL >>= fun t => L.lift (M.insertAt v i t)) (fun v => (v.map fun _ => 0).sum) (fun v => (v.map fun _ => 1).sum)
    (fun i v => insertAt v i readProto) n 0 []).mono fun v t u w h => by
      simp only [sum_const] at h
      simp at h
      omega

theorem readConstruct : Summed readConstructL (fun k t u w => t = k.params.length ∧ u = 0 ∧ w = 1) :=
  (bind readUstring fun _ => bind uindex fun _ => bind (readTypeRefs _) fun _ => pure _).mono <| by
      rintro _ t u v ⟨_, _, _, _, _, _, _, h1, ⟨_, _, _, _, _, _, _, ⟨a1, a2, a3⟩, ⟨_, _, _, _, _, _, _, ⟨b1, b2, b3⟩, ⟨rfl, h3, h4, h5⟩, c1, c2, c3⟩, h6, h7, h8⟩, h9, h10, h11⟩
      simp only
      omega

theorem readConstructs (n : Nat) : Summed (readConstructsL n) (fun v t u w => t = (v.map fun k => k.params.length).sum ∧ u = 0 ∧ w = v.length) :=
  (forRange (f := fun i v => readConstructL >>= fun t => L.lift (M.insertAt v i t)) (fun v => (v.map fun k => k.params.length).sum) (fun v => (v.map fun _ => 1).sum)
    (fun i v => insertAt v i readConstruct) n 0 []).mono fun v t u w h => by
      simp only [sum_const] at h
      simp at h
      omega

theorem decodeU8 : Summed (L.lift (M.unwrap decodeU8)) Zero := lift (.unwrap .decodeU8) (Pres.unwrap (Pres.decodeU8 composes_eq))

/-- The copies for a type with this union. -/
def OfUnion (un : ValueTypeU) (t u w : Nat) : Prop := ∀ k, Looks { noType with kind := k, union := un } t ∧ u = 0 ∧ w = names { noType with kind := k, union := un }

theorem readFuncType : Summed readFuncTypeL OfUnion :=
  (bind decodeU8 fun _ => bind (readTypeRefs _) fun _ => bind getType fun _ => pure _).mono <| by
      rintro _ t u v ⟨_, _, _, _, _, _, _, ⟨h1, h2, h3⟩, ⟨_, _, _, _, _, _, _, ⟨a1, a2, a3⟩, ⟨_, _, _, _, _, _, _, ⟨b1, b2, b3⟩, ⟨rfl, c1, c2, c3⟩, d1, d2, d3⟩, h6, h7, h8⟩, h9, h10, h11⟩
      intro k
      refine ⟨.inl ?_, by omega, ?_⟩
      · simp [ValueType.refs, noType]; omega
      · simp [names, noType]; omega

theorem readSuper : Summed readSuperL (fun a t u w => (t = 1 ∨ t = 0 ∧ a = noType) ∧ u = 0 ∧ w = 0) := by
  intro s a s' l e he
  obtain ⟨i, s1, l1, l2, h1, h2, rfl⟩ := L.bind_eq_ok e
  obtain ⟨m1, rfl⟩ := L.lift_eq_ok h1
  have c1 : s1.code = s.code := Pres.index composes_eq _ _ _ m1
  split at h2
  · cases h2
    exact ⟨Good.index.none_of m1 he, 0, 0, 0, ⟨.inr ⟨rfl, rfl⟩, rfl, rfl⟩, by simpa using Sum.refl c1⟩
  · obtain ⟨d, s2, l3, l4, h3, h4, rfl⟩ := L.bind_eq_ok h2
    obtain ⟨m2, rfl⟩ := L.lift_eq_ok h3
    cases m2
    obtain ⟨e1, k⟩ := copy_types (.unwrapOpt _) (Pres.unwrapOpt composes_eq) rfl h4 he
    rw [c1] at k
    exact ⟨Good.index.none_of m1 e1, 1, 0, 0, ⟨.inl rfl, rfl, rfl⟩, by simpa using k⟩

theorem readBindings (n : Nat) : Summed (L.lift (readBindings n)) Zero :=
  lift (.readBindings n) (Pres.forRange composes_eq (fun _ _ => Pres.bind composes_eq (Pres.uindex composes_eq) fun _ =>
    Pres.bind composes_eq (Pres.insertAt composes_eq) fun _ => Pres.bind composes_eq (Pres.uindex composes_eq) fun _ => Pres.insertAt composes_eq) _ _ _)

theorem readObjType : Summed readObjTypeL OfUnion :=
  (bind readUstring fun _ => bind readSuper fun _ => bind uindex fun _ => bind uindex fun _ => bind uindex fun _ => bind uindex fun _ =>
    bind (readFields _) fun _ => bind (readProtos _) fun _ => bind (readBindings _) fun _ => pure _).mono <| by
      rintro _ t u v ⟨_, _, _, _, _, _, _, ⟨a1, a2, a3⟩, ⟨sup, _, _, _, _, _, _, ⟨b1, b2, b3⟩, ⟨_, _, _, _, _, _, _, ⟨c1, c2, c3⟩, ⟨_, _, _, _, _, _, _, ⟨d1, d2, d3⟩,
      ⟨_, _, _, _, _, _, _, ⟨e1, e2, e3⟩, ⟨_, _, _, _, _, _, _, ⟨f1, f2, f3⟩, ⟨_, _, _, _, _, _, _, ⟨g1, g2, g3⟩, ⟨_, _, _, _, _, _, _, ⟨h1, h2, h3⟩,
      ⟨_, _, _, _, _, _, _, ⟨i1, i2, i3⟩, ⟨rfl, j1, j2, j3⟩, k1, k2, k3⟩, l1, l2, l3⟩, m1, m2, m3⟩, n1, n2, n3⟩, o1, o2, o3⟩, p1, p2, p3⟩, q1, q2, q3⟩, r1, r2, r3⟩, s1, s2, s3⟩
      intro k
      refine ⟨?_, by omega, ?_⟩
      · rcases b1 with b1 | ⟨b1, rfl⟩
        · exact .inl (by simp [ValueType.refs, noType]; omega)
        · exact .inr ⟨by simp [ValueType.refs, noType]; omega, _, _, _, _, _, _, _, _, _, rfl⟩
      · simp [names, noType]; omega

theorem readVirtualType : Summed readVirtualTypeL OfUnion :=
  (bind uindex fun _ => bind (readFields _) fun _ => pure _).mono <| by
      rintro _ t u v ⟨_, _, _, _, _, _, _, ⟨h1, h2, h3⟩, ⟨_, _, _, _, _, _, _, ⟨a1, a2, a3⟩, ⟨rfl, c1, c2, c3⟩, h6, h7, h8⟩, h9, h10, h11⟩
      intro k
      refine ⟨.inl ?_, by omega, ?_⟩
      · simp [ValueType.refs, noType]; omega
      · simp [names, noType]; omega

theorem readEnumType : Summed readEnumTypeL OfUnion :=
  (bind readUstring fun _ => bind uindex fun _ => bind uindex fun _ => bind (readConstructs _) fun _ => pure _).mono <| by
      rintro _ t u v ⟨_, _, _, _, _, _, _, ⟨h1, h2, h3⟩, ⟨_, _, _, _, _, _, _, ⟨a1, a2, a3⟩, ⟨_, _, _, _, _, _, _, ⟨b1, b2, b3⟩, ⟨_, _, _, _, _, _, _, ⟨e1, e2, e3⟩, ⟨rfl, c1, c2, c3⟩, d1, d2, d3⟩, f1, f2, f3⟩,
      h6, h7, h8⟩, h9, h10, h11⟩
      intro k
      refine ⟨.inl ?_, by omega, ?_⟩
      · simp only [ValueType.refs, noType, List.length_append, List.length_flatMap, Option.toList_none, List.length_nil]; omega
      · simp [names, noType]; omega

/-- The copies for a type. -/
def OfType (a : ValueType) (t u w : Nat) : Prop := Looks a t ∧ u = 0 ∧ w = names a

theorem readTypeBody (k : TypeKind) : Summed (readTypeBodyL { ValueType.default with kind := k }) OfType := by
  have hp : ∀ un : ValueTypeU, Summed (Pure.pure { ({ ValueType.default with kind := k } : ValueType) with union := un } : L ValueType)
    (fun b t u v => b = { noType with kind := k, union := un } ∧ Zero b t u v) := fun _ => pure _
  have hu : ∀ {x : L ValueTypeU}, Summed x OfUnion → Summed (x >>= fun un => Pure.pure { ({ ValueType.default with kind := k } : ValueType) with union := un }) OfType := fun hx =>
    (bind hx hp).mono <| by
      rintro _ t u v ⟨_, _, _, _, _, _, _, h1, ⟨rfl, h2, h3, h4⟩, h5, h6, h7⟩
      obtain ⟨a1, a2, a3⟩ := h1 k
      subst h2 h3 h4 h5 h6 h7
      exact ⟨a1, a2, a3⟩
  have ht : Summed (getTypeL >>= fun p => Pure.pure { ({ ValueType.default with kind := k } : ValueType) with tparam := some p }) OfType :=
    (bind getType fun _ => pure _).mono <| by
      rintro _ t u v ⟨_, _, _, _, _, _, _, ⟨h1, h1', h1''⟩, ⟨rfl, h2, h3, h4⟩, h5, h6, h7⟩
      exact ⟨.inl (by simp [ValueType.refs, ValueType.default]; omega), by omega, by simp [names, ValueType.default]; omega⟩
  unfold readTypeBodyL
  cases k <;> first
    | exact ht
    | exact hu readFuncType
    | exact hu readObjType
    | exact hu readVirtualType
    | exact hu readEnumType
    | exact (bind readUstring fun _ => pure _).mono <| by
        rintro _ t u v ⟨_, _, _, _, _, _, _, ⟨h1, h1', h1''⟩, ⟨rfl, h2, h3, h4⟩, h5, h6, h7⟩
        exact ⟨.inl (by simp [ValueType.refs, ValueType.default]; omega), by omega, by simp [names, ValueType.default]; omega⟩
    | exact (pure _).mono fun _ t u v ⟨h0, h2, h3, h4⟩ => by subst h0; exact ⟨.inl h2, h3, h4⟩

theorem readType : Summed (readTypeL ValueType.default) OfType := by
  intro s a s' l e he
  obtain ⟨v, s1, l1, l2, h1, h2, rfl⟩ := L.bind_eq_ok e
  obtain ⟨m1, rfl⟩ := L.lift_eq_ok h1
  have c1 : s1.code = s.code := Pres.unwrap (Pres.decodeU8 composes_eq) _ _ _ m1
  have g1 := Good.none_of (.unwrap .decodeU8) m1
  split at h2
  · obtain ⟨_, s2, l3, l4, h3, h4, rfl⟩ := L.bind_eq_ok h2
    obtain ⟨m2, rfl⟩ := L.lift_eq_ok h3
    cases m2
    cases h4
    exact absurd he (by have := Good.recordError_errors ⟨.invalidType, s1.pos⟩ s1; intro h; rw [h] at this; cases this)
  · obtain ⟨k, s2, l3, l4, h3, h4, rfl⟩ := L.bind_eq_ok h2
    obtain ⟨m2, rfl⟩ := L.lift_eq_ok h3
    have c2 : s2.code = s1.code := Pres.unwrapOpt composes_eq _ _ _ m2
    obtain ⟨e2, t, u, w, hr, hs⟩ := readTypeBody k _ _ _ _ h4 he
    rw [c2, c1] at hs
    exact ⟨g1 ((Good.unwrapOpt _).none_of m2 e2), t, u, w, hr, by simpa using hs⟩

end Summed

end Verif.Brass
