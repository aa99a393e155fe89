import Verif.Props.Roundtrip
import Verif.Props.Lookup
import Verif.Spec.Writable

/-!
# Reading a serialisation back: what a right result says about the numbers

`Back g e P Q`: if a phrase of `g` is read where the bytes `e` stand, and its value satisfies `P`, then the phrase is `e`
and `Q` holds.
-/

namespace Verif.Brass

open Verif Verif.Brass.Spec

def Back {α : Type} (g : G α) (e : List UInt8) (P : α → Prop) (Q : Prop) : Prop :=
  ∀ c k a c' r r', g c k a c' → k ++ r = e ++ r' → P a → k = e ∧ r = r' ∧ Q

/-- An index: always four bytes, two or one, but the value is right only if it is small. -/
theorem idx_back {n : Int} (hn : n.natAbs < 2 ^ 29) {k r r' : List UInt8} {a : Int} (h : IdxBytes k a) (e : k ++ r = hlIndex n ++ r') :
    k = hlIndex n ∧ r = r' ∧ (a = n ↔ n.natAbs < 0x2000) := by
  have h1 := Sem.readIndex.complete Code.new k a Code.new trivial ⟨rfl, h⟩ r 0
  by_cases hs : n.natAbs < 0x2000
  · have h2 := c25_small n hs r' ⟨k ++ r, 0, Code.new, none⟩ e
    rw [h1] at h2
    injection h2 with h2 h3
    injection h3 with h3 _
    subst h2 h3
    exact ⟨List.append_cancel_right e, rfl, by simp [hs]⟩
  · obtain ⟨m, hm, h2⟩ := c25_large_wrong n (by omega) hn r' ⟨k ++ r, 0, Code.new, none⟩ e
    rw [h1] at h2
    injection h2 with h2 h3
    injection h3 with h3 _
    subst h2 h3
    exact ⟨List.append_cancel_right e, rfl, by simp [hs, hm]⟩

theorem nat_back {n : Nat} (hn : n < 2 ^ 29) {k r r' : List UInt8} {a : Nat} (h : IdxBytes k (a : Int)) (e : k ++ r = ix n ++ r') :
    k = ix n ∧ r = r' ∧ (a = n ↔ n < 0x2000) := by
  obtain ⟨h1, h2, h3⟩ := idx_back (n := (n : Int)) (by simpa using hn) h e
  refine ⟨h1, h2, ?_⟩
  rw [← Int.ofNat_inj, Int.natAbs_natCast] at *
  exact h3

namespace Back

theorem mono {α : Type} {g : G α} {e : List UInt8} {P P' : α → Prop} {Q Q' : Prop} (h : Back g e P Q) (hp : ∀ a, P' a → P a) (hq : Q → Q') :
    Back g e P' Q' := fun c k a c' r r' hg he ha => by
  obtain ⟨h1, h2, h3⟩ := h c k a c' r r' hg he (hp a ha)
  exact ⟨h1, h2, hq h3⟩

theorem idx {n : Int} (hn : n.natAbs < 2 ^ 29) : Back idxG (hlIndex n) (fun a => a = n) (n.natAbs < 0x2000) :=
  fun _ _ _ _ _ _ h e p => by
    obtain ⟨h1, h2, h3⟩ := idx_back hn h.2 e
    exact ⟨h1, h2, h3.1 p⟩

theorem nat {n : Nat} (hn : n < 2 ^ 29) : Back natG (ix n) (fun a => a = n) (n < 0x2000) :=
  fun _ _ _ _ _ _ h e p => by
    obtain ⟨h1, h2, h3⟩ := nat_back hn h.2 e
    exact ⟨h1, h2, h3.1 p⟩

/-- The bytes of an index are passed whatever its value. -/
theorem skip {n : Nat} (hn : n < 2 ^ 29) : Back natG (ix n) (fun _ => True) True :=
  fun _ _ _ _ _ _ h e _ => by
    obtain ⟨h1, h2, _⟩ := nat_back hn h.2 e
    exact ⟨h1, h2, trivial⟩

theorem skipI {n : Int} (hn : n.natAbs < 2 ^ 29) : Back idxG (hlIndex n) (fun _ => True) True :=
  fun _ _ _ _ _ _ h e _ => by
    obtain ⟨h1, h2, _⟩ := idx_back hn h.2 e
    exact ⟨h1, h2, trivial⟩

theorem natI {n : Nat} (hn : n < 2 ^ 29) : Back natIG (ix n) (fun a => a = (n : Int)) (n < 0x2000) := by
  rintro c k a c' r r' ⟨k1, k2, b, c1, rfl, h, rfl, rfl, rfl⟩ e p
  rw [List.append_nil] at e ⊢
  exact nat hn _ _ _ _ _ _ h e (by omega)

theorem typeRef {n : Nat} (hn : n < 2 ^ 29) : Back typeRefG (ix n) (fun _ => True) True := by
  rintro c k a c' r r' ⟨_, _, j, h, _⟩ e _
  obtain ⟨h1, h2, _⟩ := nat_back hn h e
  exact ⟨h1, h2, trivial⟩

theorem stringRef {n : Nat} (hn : n < 2 ^ 29) : Back stringRefG (ix n) (fun _ => True) True := by
  rintro c k a c' r r' ⟨_, _, j, h, _⟩ e _
  obtain ⟨h1, h2, _⟩ := nat_back hn h e
  exact ⟨h1, h2, trivial⟩

theorem ustringRef {n : Nat} (hn : n < 2 ^ 29) : Back ustringRefG (ix n) (fun _ => True) True := by
  rintro c k a c' r r' ⟨_, j, h, _⟩ e _
  obtain ⟨h1, h2, _⟩ := nat_back hn h e
  exact ⟨h1, h2, trivial⟩

theorem super {s : Option Nat} (hn : ∀ t, s = some t → t < 2 ^ 29) : Back superG (superIx s) (fun _ => True) True := by
  rintro c k a c' r r' ⟨_, j, h, _⟩ e _
  cases s with
  | none =>
    obtain ⟨h1, h2, _⟩ := idx_back (n := -1) (by decide) h e
    exact ⟨h1, h2, trivial⟩
  | some t =>
    obtain ⟨h1, h2, _⟩ := idx_back (n := (t : Int)) (by simpa using hn t rfl) h e
    exact ⟨h1, h2, trivial⟩

theorem byte {n : Nat} (hn : n < 256) : Back byteG [UInt8.ofNat n] (fun _ => True) True := by
  rintro c k a c' r r' ⟨_, b, rfl, _⟩ e _
  simp only [List.cons_append, List.nil_append, List.cons.injEq] at e
  exact ⟨by rw [e.1], e.2, trivial⟩

theorem byte_val {n : Nat} (hn : n < 256) {c k a c' r r'} (h : byteG c k a c') (e : k ++ r = [UInt8.ofNat n] ++ r') : a = n := by
  obtain ⟨_, b, rfl, rfl⟩ := h
  simp only [List.cons_append, List.nil_append, List.cons.injEq] at e
  rw [e.1]
  exact ofNat8 hn

theorem many {α X β : Type} {g : G α} {enc : X → List UInt8} {f : α → β} {v : X → β} {Q : X → Prop} : ∀ (xs : List X),
    (∀ x ∈ xs, Back g (enc x) (fun a => f a = v x) (Q x)) →
    Back (G.many g xs.length) (xs.flatMap enc) (fun l => l.map f = xs.map v) (∀ x ∈ xs, Q x)
  | [], _ => by
    rintro c k a c' r r' ⟨rfl, rfl, rfl⟩ e _
    exact ⟨rfl, e, by simp⟩
  | x :: xs, h => by
    rintro c k a c' r r' ⟨k1, _, b, c1, rfl, h1, k2, _, l, c2, rfl, h2, rfl, rfl, rfl⟩ e p
    simp only [List.map_cons, List.cons.injEq] at p
    simp only [List.flatMap_cons, List.append_assoc, List.append_nil] at e ⊢
    obtain ⟨rfl, e, q⟩ := h x (by simp) _ _ _ _ _ _ h1 e p.1
    obtain ⟨rfl, rfl, q'⟩ := many xs (fun y hy => h y (by simp [hy])) _ _ _ _ _ _ h2 e p.2
    refine ⟨rfl, rfl, ?_⟩
    intro y hy
    rcases List.mem_cons.1 hy with rfl | hy
    · exact q
    · exact q' y hy

/-- Items that need not be right. -/
theorem many' {α X : Type} {g : G α} {enc : X → List UInt8} (xs : List X) (h : ∀ x ∈ xs, Back g (enc x) (fun _ => True) True) :
    Back (G.many g xs.length) (xs.flatMap enc) (fun _ => True) True := by
  intro c k a c' r r' hg e _
  obtain ⟨h1, h2, _⟩ := many (f := fun _ => ()) (v := fun _ => ()) (Q := fun _ => True) xs
    (fun x hx => (h x hx).mono (fun _ _ => trivial) id) c k a c' r r' hg e (by
      show a.map (fun _ => ()) = xs.map (fun _ => ())
      rw [List.map_const', List.map_const', many_length _ hg])
  exact ⟨h1, h2, trivial⟩


theorem field {f : RField} (h : f.name < 2 ^ 29 ∧ f.type < 2 ^ 29) : Back fieldG f.encode (fun _ => True) True := by
  rintro c k a c' r r' ⟨k1, _, b, c1, rfl, h1, k2, _, l, c2, rfl, h2, rfl, rfl, rfl⟩ e _
  simp only [RField.encode, List.append_assoc, List.append_nil] at e ⊢
  obtain ⟨rfl, e, _⟩ := ustringRef h.1 _ _ _ _ _ _ h1 e trivial
  obtain ⟨rfl, rfl, _⟩ := typeRef h.2 _ _ _ _ _ _ h2 e trivial
  exact ⟨rfl, rfl, trivial⟩

theorem proto {f : RProto} (h : f.name < 2 ^ 29 ∧ f.findex < 2 ^ 29 ∧ f.pindex.natAbs < 2 ^ 29) :
    Back protoG f.encode (fun a => (a.findex, a.pindex) = (f.findex, f.pindex)) (f.findex < 0x2000 ∧ f.pindex.natAbs < 0x2000) := by
  rintro c k a c' r r' ⟨k1, _, b, c1, rfl, h1, k2, _, l, c2, rfl, h2, k3, _, l3, c3, rfl, h3, rfl, rfl, rfl⟩ e p
  simp only [RProto.encode, List.append_assoc, List.append_nil] at e ⊢
  simp only [Prod.mk.injEq] at p
  obtain ⟨rfl, e, _⟩ := ustringRef h.1 _ _ _ _ _ _ h1 e trivial
  obtain ⟨rfl, e, q2⟩ := nat h.2.1 _ _ _ _ _ _ h2 e p.1
  obtain ⟨rfl, rfl, q3⟩ := idx h.2.2 _ _ _ _ _ _ h3 e p.2
  exact ⟨rfl, rfl, q2, q3⟩

theorem binding {b : Nat × Nat} (h : b.1 < 2 ^ 29 ∧ b.2 < 2 ^ 29) :
    Back bindingG (ix b.1 ++ ix b.2) (fun a => a = b) (b.1 < 0x2000 ∧ b.2 < 0x2000) := by
  rintro c k a c' r r' ⟨k1, _, x, c1, rfl, h1, k2, _, y, c2, rfl, h2, rfl, rfl, rfl⟩ e p
  simp only [List.append_assoc, List.append_nil] at e ⊢
  subst p
  obtain ⟨rfl, e, q1⟩ := nat h.1 _ _ _ _ _ _ h1 e rfl
  obtain ⟨rfl, rfl, q2⟩ := nat h.2 _ _ _ _ _ _ h2 e rfl
  exact ⟨rfl, rfl, q1, q2⟩

theorem construct {x : RConstruct} (h : x.name < 2 ^ 29 ∧ x.params.length < 2 ^ 29 ∧ ∀ t ∈ x.params, t < 2 ^ 29) :
    Back constructG x.encode (fun a => a.nparams = x.params.length) (x.params.length < 0x2000) := by
  rintro c k a c' r r' ⟨k1, _, b, c1, rfl, h1, k2, _, l, c2, rfl, h2, k3, _, l3, c3, rfl, h3, rfl, rfl, rfl⟩ e p
  simp only [RConstruct.encode, List.append_assoc, List.append_nil] at e ⊢
  simp only at p
  obtain ⟨rfl, e, _⟩ := ustringRef h.1 _ _ _ _ _ _ h1 e trivial
  obtain ⟨rfl, e, q2⟩ := nat h.2.1 _ _ _ _ _ _ h2 e p
  rw [p] at h3
  obtain ⟨rfl, rfl, _⟩ := many' x.params (fun t ht => typeRef (h.2.2 t ht)) _ _ _ _ _ _ h3 e trivial
  exact ⟨rfl, rfl, q2⟩

theorem pairs_inj : ∀ {l l' : List (Nat × Nat)}, l.flatMap (fun b => [b.1, b.2]) = l'.flatMap (fun b => [b.1, b.2]) → l = l'
  | [], [], _ => rfl
  | [], _ :: _, h => by simp at h
  | _ :: _, [], h => by simp at h
  | a :: l, b :: l', h => by
    simp only [List.flatMap_cons, List.cons_append, List.nil_append, List.cons.injEq] at h
    rw [pairs_inj h.2.2, Prod.ext h.1 h.2.1]

end Back

namespace Back

theorem typ {t : RType} (hw : t.Writable) (hn : ∀ j ∈ t.names, j < 2 ^ 29) (hr : ∀ j ∈ t.refs, j < 2 ^ 29) :
    Back typeG t.encode (fun v => ∃ strs prev, v = t.decoded strs prev) t.Small := by
  rintro c k v c' r r' ⟨k1, _, b, c1, rfl, h1, _, _, _, _, rfl, ⟨rfl, hb, rfl⟩, _, k2, kd, _, rfl, ⟨rfl, hk, rfl⟩, h2⟩ e ⟨strs, prev, hv⟩
  rw [show t.encode = [UInt8.ofNat (kindNumber t.kind)] ++ t.encodeBody from rfl] at e ⊢
  simp only [List.append_assoc, List.nil_append] at e ⊢
  have hlast : t.kind ≠ .HLAST := by
    cases t with
    | prim kd =>
      intro h
      have hm : kd ∈ primKinds := hw
      rw [show kd = .HLAST from h] at hm
      revert hm; decide
    | func m args ret => cases m <;> simp [RType.kind]
    | obj m => cases m <;> simp [RType.kind]
    | _ => simp [RType.kind]
  have hkn : kindNumber t.kind < 23 := by cases h : t.kind <;> first | decide | exact absurd h hlast
  have hbv := byte_val (n := kindNumber t.kind) (by omega) h1 e
  obtain ⟨rfl, e, _⟩ := byte (n := kindNumber t.kind) (by omega) _ _ _ _ _ _ h1 e trivial
  subst hbv
  have hkd : kd = t.kind := by
    have : hlKinds[kindNumber t.kind]? = some t.kind := by cases h : t.kind <;> first | rfl | exact absurd h hlast
    rw [this] at hk; exact (Option.some.inj hk).symm
  subst hkd
  suffices h : k2 = t.encodeBody ∧ r = r' ∧ t.Small by
    obtain ⟨rfl, rfl, h⟩ := h
    exact ⟨rfl, rfl, h⟩
  clear h1 hk
  obtain ⟨c1, h2⟩ : ∃ c1, typeBodyG { noType with kind := t.kind } c1 k2 v c' := ⟨_, h2⟩
  cases t with
  | prim kd =>
    have hm : kd ∈ primKinds := hw
    have : k2 = [] := by
      simp only [RType.kind, primKinds, List.mem_cons, List.not_mem_nil, or_false] at hm h2
      rcases hm with rfl | rfl | rfl | rfl | rfl | rfl | rfl | rfl | rfl | rfl | rfl | rfl | rfl <;> exact h2.1
    subst this
    exact ⟨rfl, e, hm⟩
  | func m args ret =>
    have ha : args.length < 256 := hw
    have key : funcTypeG c1 k2 v.union c' := by
      cases m <;>
      · obtain ⟨k3, _, u, c3, rfl, h3, rfl, rfl, rfl⟩ := h2
        rw [List.append_nil]; exact h3
    obtain ⟨k3, _, n, c3, rfl, h3, k4, _, as, c4, rfl, h4, k5, _, rt, c5, rfl, h5, rfl, _, rfl⟩ := key
    simp only [RType.encodeBody, List.append_assoc, List.append_nil] at e ⊢
    have hn3 := byte_val ha h3 e
    obtain ⟨rfl, e, _⟩ := byte ha _ _ _ _ _ _ h3 e trivial
    subst hn3
    obtain ⟨rfl, e, _⟩ := many' args (fun t ht => typeRef (hr t (by simp [RType.refs, ht]))) _ _ _ _ _ _ h4 e trivial
    obtain ⟨rfl, rfl, _⟩ := typeRef (hr ret (by simp [RType.refs])) _ _ _ _ _ _ h5 e trivial
    exact ⟨rfl, rfl, ha⟩
  | obj st name super global fields protos bindings =>
    obtain ⟨w1, w2, w3, w4, w5, w6⟩ := hw
    have key : objTypeG c1 k2 v.union c' := by
      cases st <;>
      · obtain ⟨k3, _, u, c3, rfl, h3, rfl, rfl, rfl⟩ := h2
        rw [List.append_nil]; exact h3
    obtain ⟨k3, _, nm, c3, rfl, h3, k4, _, su, c4, rfl, h4, k5, _, gl, c5, rfl, h5, k6, _, nf, c6, rfl, h6, k7, _, np, c7, rfl, h7,
      k8, _, nb, c8, rfl, h8, k9, _, fs, c9, rfl, h9, k10, _, ps, c10, rfl, h10, k11, _, bs, c11, rfl, h11, rfl, hu, rfl⟩ := key
    have hv' := congrArg ValueType.union hv
    rw [hu] at hv'
    simp only [RType.decoded, ofKind, ValueTypeU.obj.injEq] at hv'
    obtain ⟨_, _, v3, v4, v5, v6, v7, v8, v9, _⟩ := hv'
    simp only [RType.encodeBody, List.append_assoc, List.append_nil] at e ⊢
    obtain ⟨rfl, e, _⟩ := ustringRef (hn name (by simp [RType.names])) _ _ _ _ _ _ h3 e trivial
    obtain ⟨rfl, e, _⟩ := Back.super (fun t ht => hr t (by simp [RType.refs, ht])) _ _ _ _ _ _ h4 e trivial
    obtain ⟨rfl, e, q5⟩ := nat w1 _ _ _ _ _ _ h5 e (by simp at v9; omega)
    obtain ⟨rfl, e, q6⟩ := nat w2 _ _ _ _ _ _ h6 e v4
    obtain ⟨rfl, e, q7⟩ := nat w3 _ _ _ _ _ _ h7 e v5
    obtain ⟨rfl, e, q8⟩ := nat w4 _ _ _ _ _ _ h8 e v6
    subst v4 v5 v6
    obtain ⟨rfl, e, _⟩ := many' fields (fun t ht => field ⟨hn t.name (by simp [RType.names]; exact .inr (.inl ⟨t, ht, rfl⟩)),
      hr t.type (by simp [RType.refs]; exact .inr ⟨t, ht, rfl⟩)⟩) _ _ _ _ _ _ h9 e trivial
    obtain ⟨rfl, e, q10⟩ := many protos (fun t ht => proto ⟨hn t.name (by simp [RType.names]; exact .inr (.inr ⟨t, ht, rfl⟩)),
      w5 t ht⟩) _ _ _ _ _ _ h10 e (by subst v7; simp [RProto.decoded])
    obtain ⟨rfl, rfl, q11⟩ := many (f := id) (v := id) bindings (fun t ht => binding (w6 t ht)) _ _ _ _ _ _ h11 e (by rw [pairs_inj v8])
    exact ⟨rfl, rfl, q5, q6, q7, q8, q10, q11⟩
  | virt fields =>
    have key : virtualTypeG c1 k2 v.union c' := by
      obtain ⟨k3, _, u, c3, rfl, h3, rfl, rfl, rfl⟩ := h2
      rw [List.append_nil]; exact h3
    obtain ⟨k6, _, nf, c6, rfl, h6, k9, _, fs, c9, rfl, h9, rfl, hu, rfl⟩ := key
    have hv' := congrArg ValueType.union hv
    rw [hu] at hv'
    simp only [RType.decoded, ofKind, ValueTypeU.virt.injEq] at hv'
    obtain ⟨v4, v3⟩ := hv'
    simp only [RType.encodeBody, List.append_assoc, List.append_nil] at e ⊢
    obtain ⟨rfl, e, q6⟩ := nat hw _ _ _ _ _ _ h6 e v4
    subst v4
    obtain ⟨rfl, rfl, _⟩ := many' fields (fun t ht => field ⟨hn t.name (by simp [RType.names]; exact ⟨t, ht, rfl⟩),
      hr t.type (by simp [RType.refs]; exact ⟨t, ht, rfl⟩)⟩) _ _ _ _ _ _ h9 e trivial
    exact ⟨rfl, rfl, q6⟩
  | enum name global cs =>
    obtain ⟨w1, w2, w3⟩ := hw
    have key : enumTypeG c1 k2 v.union c' := by
      obtain ⟨k3, _, u, c3, rfl, h3, rfl, rfl, rfl⟩ := h2
      rw [List.append_nil]; exact h3
    obtain ⟨k3, _, nm, c3, rfl, h3, k5, _, gl, c5, rfl, h5, k6, _, nf, c6, rfl, h6, k9, _, fs, c9, rfl, h9, rfl, hu, rfl⟩ := key
    have hv' := congrArg ValueType.union hv
    rw [hu] at hv'
    simp only [RType.decoded, ofKind, ValueTypeU.enum.injEq] at hv'
    obtain ⟨_, v4, v3, v9⟩ := hv'
    simp only [RType.encodeBody, List.append_assoc, List.append_nil] at e ⊢
    obtain ⟨rfl, e, _⟩ := ustringRef (hn name (by simp [RType.names])) _ _ _ _ _ _ h3 e trivial
    obtain ⟨rfl, e, q5⟩ := nat w1 _ _ _ _ _ _ h5 e (by simp at v9; omega)
    obtain ⟨rfl, e, q6⟩ := nat w2 _ _ _ _ _ _ h6 e v4
    subst v4
    obtain ⟨rfl, rfl, q9⟩ := many cs (fun t ht => construct ⟨hn t.name (by simp [RType.names]; exact .inr ⟨t, ht, rfl⟩), w3 t ht,
      fun j hj => hr j (by simp [RType.refs]; exact ⟨t, ht, hj⟩)⟩) _ _ _ _ _ _ h9 e (by subst v3; simp [RConstruct.decoded])
    exact ⟨rfl, rfl, q5, q6, q9⟩
  | abstract name =>
    obtain ⟨k3, _, u, c3, rfl, h3, rfl, rfl, rfl⟩ := h2
    simp only [List.append_nil] at e ⊢
    obtain ⟨rfl, rfl, _⟩ := ustringRef (hn name (by simp [RType.names])) _ _ _ _ _ _ h3 e trivial
    exact ⟨rfl, rfl, trivial⟩
  | ref j =>
    obtain ⟨k3, _, u, c3, rfl, h3, rfl, rfl, rfl⟩ := h2
    simp only [List.append_nil] at e ⊢
    obtain ⟨rfl, rfl, _⟩ := typeRef (hr j (by simp [RType.refs])) _ _ _ _ _ _ h3 e trivial
    exact ⟨rfl, rfl, trivial⟩
  | null j =>
    obtain ⟨k3, _, u, c3, rfl, h3, rfl, rfl, rfl⟩ := h2
    simp only [List.append_nil] at e ⊢
    obtain ⟨rfl, rfl, _⟩ := typeRef (hr j (by simp [RType.refs])) _ _ _ _ _ _ h3 e trivial
    exact ⟨rfl, rfl, trivial⟩
  | packed j =>
    obtain ⟨k3, _, u, c3, rfl, h3, rfl, rfl, rfl⟩ := h2
    simp only [List.append_nil] at e ⊢
    obtain ⟨rfl, rfl, _⟩ := typeRef (hr j (by simp [RType.refs])) _ _ _ _ _ _ h3 e trivial
    exact ⟨rfl, rfl, trivial⟩

end Back

namespace Back

theorem ints (l : List Int) (h : ∀ a ∈ l, a.natAbs < 2 ^ 29) : Back (G.many idxG l.length) (l.flatMap hlIndex) (fun a => a = l) (∀ a ∈ l, a.natAbs < 0x2000) :=
  (many (f := id) (v := id) l (fun a ha => idx (h a ha))).mono (fun _ h => by rw [h]) id

theorem nats (l : List Nat) (h : ∀ a ∈ l, a < 2 ^ 29) : Back (G.many natG l.length) (l.flatMap ix) (fun a => a = l) (∀ a ∈ l, a < 0x2000) :=
  (many (f := id) (v := id) l (fun a ha => nat (h a ha))).mono (fun _ h => by rw [h]) id

theorem operands (op : Op) (args : List Int) (hl : args.length ≤ 6) (h : ∀ a ∈ args, a.natAbs < 2 ^ 29) :
    Back (operandsG (bare op) (args.length : Int)) (args.flatMap hlIndex) (fun o => o = Instr.decoded (.plain op args))
      (∀ a ∈ args, a.natAbs < 0x2000) := by
  intro c k a c' r r' hg e p
  subst p
  match args, hl, h with
  | [], _, _ => obtain ⟨rfl, _, rfl⟩ := hg; exact ⟨rfl, e, by simp⟩
  | [x1], _, h =>
    obtain ⟨k1, _, y1, _, rfl, h1, rfl, hv, rfl⟩ := hg
    have v1 : y1 = x1 := by simpa [Instr.decoded, bare] using (congrArg Opcode.p1 hv).symm
    simp only [List.flatMap_cons, List.flatMap_nil, List.append_assoc, List.append_nil, List.nil_append] at e ⊢
    obtain ⟨rfl, rfl, q1⟩ := idx (h x1 (by simp)) _ _ _ _ _ _ h1 e v1
    exact ⟨rfl, rfl, by simpa using q1⟩
  | [x1, x2], _, h =>
    obtain ⟨k1, _, y1, _, rfl, h1, k2, _, y2, _, rfl, h2, rfl, hv, rfl⟩ := hg
    have v1 : y1 = x1 := by simpa [Instr.decoded, bare] using (congrArg Opcode.p1 hv).symm
    have v2 : y2 = x2 := by simpa [Instr.decoded, bare] using (congrArg Opcode.p2 hv).symm
    simp only [List.flatMap_cons, List.flatMap_nil, List.append_assoc, List.append_nil, List.nil_append] at e ⊢
    obtain ⟨rfl, e, q1⟩ := idx (h x1 (by simp)) _ _ _ _ _ _ h1 e v1
    obtain ⟨rfl, rfl, q2⟩ := idx (h x2 (by simp)) _ _ _ _ _ _ h2 e v2
    exact ⟨rfl, rfl, by simpa using ⟨q1, q2⟩⟩
  | [x1, x2, x3], _, h =>
    obtain ⟨k1, _, y1, _, rfl, h1, k2, _, y2, _, rfl, h2, k3, _, y3, _, rfl, h3, rfl, hv, rfl⟩ := hg
    have v1 : y1 = x1 := by simpa [Instr.decoded, bare] using (congrArg Opcode.p1 hv).symm
    have v2 : y2 = x2 := by simpa [Instr.decoded, bare] using (congrArg Opcode.p2 hv).symm
    have v3 : y3 = x3 := by simpa [Instr.decoded, bare] using (congrArg Opcode.p3 hv).symm
    simp only [List.flatMap_cons, List.flatMap_nil, List.append_assoc, List.append_nil, List.nil_append] at e ⊢
    obtain ⟨rfl, e, q1⟩ := idx (h x1 (by simp)) _ _ _ _ _ _ h1 e v1
    obtain ⟨rfl, e, q2⟩ := idx (h x2 (by simp)) _ _ _ _ _ _ h2 e v2
    obtain ⟨rfl, rfl, q3⟩ := idx (h x3 (by simp)) _ _ _ _ _ _ h3 e v3
    exact ⟨rfl, rfl, by simpa using ⟨q1, q2, q3⟩⟩
  | [x1, x2, x3, x4], _, h =>
    obtain ⟨k1, _, y1, _, rfl, h1, k2, _, y2, _, rfl, h2, k3, _, y3, _, rfl, h3, k4, _, y4, _, rfl, h4, rfl, hv, rfl⟩ := hg
    have v1 : y1 = x1 := by simpa [Instr.decoded, bare] using (congrArg Opcode.p1 hv).symm
    have v2 : y2 = x2 := by simpa [Instr.decoded, bare] using (congrArg Opcode.p2 hv).symm
    have v3 : y3 = x3 := by simpa [Instr.decoded, bare] using (congrArg Opcode.p3 hv).symm
    have v4 : y4 = x4 := by simpa [Instr.decoded, bare] using (congrArg Opcode.extra hv).symm
    simp only [List.flatMap_cons, List.flatMap_nil, List.append_assoc, List.append_nil, List.nil_append] at e ⊢
    obtain ⟨rfl, e, q1⟩ := idx (h x1 (by simp)) _ _ _ _ _ _ h1 e v1
    obtain ⟨rfl, e, q2⟩ := idx (h x2 (by simp)) _ _ _ _ _ _ h2 e v2
    obtain ⟨rfl, e, q3⟩ := idx (h x3 (by simp)) _ _ _ _ _ _ h3 e v3
    obtain ⟨rfl, rfl, q4⟩ := idx (h x4 (by simp)) _ _ _ _ _ _ h4 e v4
    exact ⟨rfl, rfl, by simpa using ⟨q1, q2, q3, q4⟩⟩
  | [x1, x2, x3, x4, x5], _, h =>
    obtain ⟨k1, _, y1, _, rfl, h1, k2, _, y2, _, rfl, h2, k3, _, y3, _, rfl, h3, _, _, _, _, rfl, ⟨rfl, _, rfl⟩, _, _, l, _, rfl, ⟨k4, _, l', _, rfl, h4, rfl, rfl, rfl⟩, rfl, hv, rfl⟩ := hg
    have v1 : y1 = x1 := by simpa [Instr.decoded, bare] using (congrArg Opcode.p1 hv).symm
    have v2 : y2 = x2 := by simpa [Instr.decoded, bare] using (congrArg Opcode.p2 hv).symm
    have v3 : y3 = x3 := by simpa [Instr.decoded, bare] using (congrArg Opcode.p3 hv).symm
    have v4 : l' = [x4, x5] := (List.append_inj_left' (show [x4, x5] ++ [0, 0] = l' ++ [0, 0] from congrArg Opcode.extra hv) rfl).symm
    simp only [List.flatMap_cons, List.flatMap_nil, List.append_assoc, List.append_nil, List.nil_append] at e ⊢
    obtain ⟨rfl, e, q1⟩ := idx (h x1 (by simp)) _ _ _ _ _ _ h1 e v1
    obtain ⟨rfl, e, q2⟩ := idx (h x2 (by simp)) _ _ _ _ _ _ h2 e v2
    obtain ⟨rfl, e, q3⟩ := idx (h x3 (by simp)) _ _ _ _ _ _ h3 e v3
    obtain ⟨rfl, rfl, q4⟩ := ints [x4, x5] (fun a ha => h a (by simp at ha ⊢; rcases ha with ha | ha <;> simp [ha])) _ _ _ _ _ _ h4 (by simpa using e) v4
    refine ⟨by simp, rfl, ?_⟩
    intro a ha
    rcases List.mem_cons.1 ha with rfl | ha
    · exact q1
    rcases List.mem_cons.1 ha with rfl | ha
    · exact q2
    rcases List.mem_cons.1 ha with rfl | ha
    · exact q3
    exact q4 a ha
  | [x1, x2, x3, x4, x5, x6], _, h =>
    obtain ⟨k1, _, y1, _, rfl, h1, k2, _, y2, _, rfl, h2, k3, _, y3, _, rfl, h3, _, _, _, _, rfl, ⟨rfl, _, rfl⟩, _, _, l, _, rfl, ⟨k4, _, l', _, rfl, h4, rfl, rfl, rfl⟩, rfl, hv, rfl⟩ := hg
    have v1 : y1 = x1 := by simpa [Instr.decoded, bare] using (congrArg Opcode.p1 hv).symm
    have v2 : y2 = x2 := by simpa [Instr.decoded, bare] using (congrArg Opcode.p2 hv).symm
    have v3 : y3 = x3 := by simpa [Instr.decoded, bare] using (congrArg Opcode.p3 hv).symm
    have v4 : l' = [x4, x5, x6] := (List.append_inj_left' (show [x4, x5, x6] ++ [0, 0, 0] = l' ++ [0, 0, 0] from congrArg Opcode.extra hv) rfl).symm
    simp only [List.flatMap_cons, List.flatMap_nil, List.append_assoc, List.append_nil, List.nil_append] at e ⊢
    obtain ⟨rfl, e, q1⟩ := idx (h x1 (by simp)) _ _ _ _ _ _ h1 e v1
    obtain ⟨rfl, e, q2⟩ := idx (h x2 (by simp)) _ _ _ _ _ _ h2 e v2
    obtain ⟨rfl, e, q3⟩ := idx (h x3 (by simp)) _ _ _ _ _ _ h3 e v3
    obtain ⟨rfl, rfl, q4⟩ := ints [x4, x5, x6] (fun a ha => h a (by simp at ha ⊢; rcases ha with ha | ha | ha <;> simp [ha])) _ _ _ _ _ _ h4 (by simpa using e) v4
    refine ⟨by simp, rfl, ?_⟩
    intro a ha
    rcases List.mem_cons.1 ha with rfl | ha
    · exact q1
    rcases List.mem_cons.1 ha with rfl | ha
    · exact q2
    rcases List.mem_cons.1 ha with rfl | ha
    · exact q3
    exact q4 a ha

theorem opcode {i : Instr} (hw : i.Writable) : Back opcodeG i.encode (fun o => o = i.decoded) i.Ok := by
  rintro c k o c' r r' ⟨k1, _, b, c1, rfl, h1, _, _, _, _, rfl, ⟨rfl, hb, rfl⟩, _, k2, op', _, rfl, ⟨rfl, hk, rfl⟩, h2⟩ e hv
  have hop : ∀ op : Op, op ≠ .OLast → b = opNumber op → op' = op := by
    intro op h hb'
    have : hlOps[opNumber op]? = some op := by cases op <;> first | decide +kernel | exact absurd rfl h
    rw [hb', this] at hk
    exact (Option.some.inj hk).symm
  have hlt : ∀ op : Op, op ≠ .OLast → opNumber op < 256 := by
    intro op h
    cases op <;> first | decide | exact absurd rfl h
  simp only [List.append_assoc, List.nil_append] at e ⊢
  cases i with
  | plain op args =>
    obtain ⟨w1, w2, w3⟩ := hw
    simp only [Instr.encode, List.append_assoc] at e ⊢
    have hbv := byte_val (hlt op w1) h1 e
    obtain ⟨rfl, e2, _⟩ := byte (hlt op w1) _ _ _ _ _ _ h1 e trivial
    clear e h1
    obtain rfl := hop op w1 hbv
    have e := e2
    clear e2
    rw [w2] at h2
    obtain ⟨rfl, rfl, q⟩ := operands _ args (Enc.nargs_plain _ _ w2).2 w3 _ _ _ _ _ _ h2 e hv
    exact ⟨rfl, rfl, w1, w2, q⟩
  | call op dst fn args =>
    obtain ⟨w1, w2, w3, w4, w5⟩ := hw
    have w0 : op ≠ .OLast := by rintro rfl; simp [hlShape] at w1
    simp only [Instr.encode, List.append_assoc] at e ⊢
    have hbv := byte_val (hlt op w0) h1 e
    obtain ⟨rfl, e2, _⟩ := byte (hlt op w0) _ _ _ _ _ _ h1 e trivial
    clear e h1
    obtain rfl := hop op w0 hbv
    have e := e2
    clear e2
    have key : ∃ c1, callLikeG (bare op') c1 k2 o c' := by
      rw [w1] at h2
      rcases (Enc.nargs_call op' w1).2 with h | h | h | h | h <;> subst h <;> exact ⟨_, h2⟩
    obtain ⟨c1, k3, _, y1, _, rfl, h3, k4, _, y2, _, rfl, h4, k5, _, y3, _, rfl, h5, _, _, l, _, rfl, ⟨k6, _, l', _, rfl, h6, rfl, rfl, rfl⟩, rfl, hd, rfl⟩ := key
    rw [hv] at hd
    have v1 : y1 = dst := by simpa [Instr.decoded, bare] using (congrArg Opcode.p1 hd).symm
    have v2 : y2 = fn := by simpa [Instr.decoded, bare] using (congrArg Opcode.p2 hd).symm
    have v3 : y3 = args.length := by
      have : (y3 : Int) = args.length := by simpa [Instr.decoded, bare] using (congrArg Opcode.p3 hd).symm
      omega
    subst v3
    have v4 : l' = args := (List.append_inj_left' (show args ++ List.replicate args.length 0 = l' ++ List.replicate args.length 0 from
      congrArg Opcode.extra hd) rfl).symm
    simp only [List.append_assoc, List.append_nil] at e ⊢
    obtain ⟨rfl, e, q1⟩ := idx w3 _ _ _ _ _ _ h3 e v1
    obtain ⟨rfl, e, q2⟩ := idx w4 _ _ _ _ _ _ h4 e v2
    obtain ⟨rfl, e, _⟩ := byte w2 _ _ _ _ _ _ h5 e trivial
    obtain ⟨rfl, rfl, q4⟩ := ints args w5 _ _ _ _ _ _ h6 e v4
    exact ⟨rfl, rfl, w1, w2, q1, q2, q4⟩
  | switch reg targets end_ =>
    obtain ⟨w1, w2, w3, w4⟩ := hw
    simp only [Instr.encode, List.append_assoc] at e ⊢
    have hbv := byte_val (hlt .OSwitch (by decide)) h1 e
    obtain ⟨rfl, e, _⟩ := byte (hlt .OSwitch (by decide)) _ _ _ _ _ _ h1 e trivial
    obtain rfl := hop .OSwitch (by decide) hbv
    obtain ⟨k3, _, y1, _, rfl, h3, k4, _, y2, _, rfl, h4, _, _, l, _, rfl, ⟨k6, _, l', _, rfl, h6, rfl, rfl, rfl⟩, k5, _, y3, _, rfl, h5, rfl, hd, rfl⟩ := h2
    rw [hv] at hd
    have v1 : y1 = reg := by simpa [Instr.decoded, bare] using (congrArg Opcode.p1 hd).symm
    have v2 : y2 = targets.length := by
      have : (y2 : Int) = targets.length := by simpa [Instr.decoded, bare] using (congrArg Opcode.p2 hd).symm
      omega
    have v3 : y3 = end_ := by simpa [Instr.decoded, bare] using (congrArg Opcode.p3 hd).symm
    subst v2
    have v4 : l' = targets.map fun (t : Nat) => (t : Int) := by
      have : padded (targets.map fun (t : Nat) => (t : Int)) = l' ++ List.replicate targets.length 0 := congrArg Opcode.extra hd
      rw [padded, List.length_map] at this
      exact (List.append_inj_left' this rfl).symm
    simp only [List.append_assoc, List.append_nil] at e ⊢
    obtain ⟨rfl, e, q1⟩ := natI w1 _ _ _ _ _ _ h3 e v1
    obtain ⟨rfl, e, q2⟩ := nat w2 _ _ _ _ _ _ h4 e rfl
    obtain ⟨rfl, e, q4⟩ := many (f := id) (v := fun (t : Nat) => (t : Int)) targets (fun t ht => natI (w4 t ht)) _ _ _ _ _ _ h6 e (by simpa using v4)
    obtain ⟨rfl, rfl, q3⟩ := natI w3 _ _ _ _ _ _ h5 e v3
    exact ⟨rfl, rfl, q1, q2, q3, q4⟩

end Back

namespace Back

theorem strings (ss : List Text) (h : ∀ s ∈ ss, (utf8 s).length < 2 ^ 29) (hb : (blob ss).length < 2 ^ 31) :
    Back (stringsG ss.length) (hlStrings ss) (fun l => l = ss.map utf8) (∀ s ∈ ss, (utf8 s).length < 0x2000) := by
  intro c k a c' r r' hg e p
  have h1 := (Sem.readStrings ss.length).complete c k (a, a.map List.length) c' trivial ⟨k, [], a, c', by simp, hg, rfl, rfl, rfl⟩ r 0
  subst p
  rw [e] at h1
  have hs := (c33_exactly_short ss h hb r' 0 c).1 ⟨_, _, h1⟩
  rw [c33_strings_roundtrip ss hs hb r' 0 c] at h1
  injection h1 with _ h1
  injection h1 with h1 _
  subst h1
  exact ⟨List.append_cancel_right e, rfl, hs⟩

theorem assigns (l : List (Nat × Int)) (h : l.length < 0x2000 ∧ ∀ a ∈ l, a.1 < 0x2000 ∧ a.2.natAbs < 0x2000) :
    Back assignsG (ix l.length ++ l.flatMap fun a => ix a.1 ++ hlIndex a.2) (fun _ => True) True := by
  rintro c k a c' r r' ⟨k1, _, n, c1, rfl, h1, k2, _, x, c2, rfl, h2, rfl, rfl, rfl⟩ e _
  simp only [List.append_assoc, List.append_nil] at e ⊢
  obtain ⟨rfl, e, q⟩ := nat_back (by omega) h1.2 e
  rw [q.2 h.1] at h2
  obtain ⟨rfl, rfl, _⟩ := many' l (enc := fun a => ix a.1 ++ hlIndex a.2) (fun x hx => by
    rintro c k a c' r r' ⟨k1, _, y, c1, rfl, h1, k2, _, z, c2, rfl, h2, rfl, rfl, rfl⟩ e _
    simp only [List.append_assoc, List.append_nil] at e ⊢
    have := h.2 x hx
    obtain ⟨rfl, e, _⟩ := skip (by omega) _ _ _ _ _ _ h1 e trivial
    obtain ⟨rfl, rfl, _⟩ := skipI (by omega) _ _ _ _ _ _ h2 e trivial
    exact ⟨rfl, rfl, trivial⟩) _ _ _ _ _ _ h2 e trivial
  exact ⟨rfl, rfl, trivial⟩

theorem debugInfos (p : Profile) (nops : Nat) (items : List DbgItem) (c : Code) (hn : c.ndebugfiles < 2 ^ 31)
    (h : DbgStream nops c.ndebugfiles items) (hl : items.length < 2 ^ 24) (hs : ∀ i ∈ items, i.Supported) {k w c' r r'}
    (hg : debugInfosG p nops c k w c') (e : k ++ r = items.flatMap DbgItem.encode ++ r') :
    k = items.flatMap DbgItem.encode ∧ r = r' := by
  have h1 := (Sem.debugInfos p nops).complete c k w c' trivial hg r 0
  rw [e, (c42_debug_iff_supported p nops items c hn h hl r' 0).2 hs] at h1
  injection h1 with _ h1
  injection h1 with h1 _
  subst h1
  exact ⟨List.append_cancel_right e, rfl⟩

theorem functionG {m : RModule} (ht : m.types.length < 2 ^ 29) {f : RFunction} (hw : f.Writable m) :
    Back Spec.functionG (ix f.type ++ (ix f.findex ++ (ix f.regs.length ++ (ix f.ops.length ++ (f.regs.flatMap ix ++ f.ops.flatMap Instr.encode)))))
      (fun v => v.findex = f.findex ∧ v.nregs = f.regs.length ∧ v.nops = f.ops.length ∧ v.ops = f.ops.map Instr.decoded)
      (f.findex < 0x2000 ∧ f.regs.length < 0x2000 ∧ f.ops.length < 0x2000 ∧ ∀ o ∈ f.ops, o.Ok) := by
  rintro c k a c' r r' ⟨k1, _, x1, _, rfl, h1, k2, _, x2, _, rfl, h2, k3, _, x3, _, rfl, h3, k4, _, x4, _, rfl, h4, k5, _, x5, _, rfl, h5,
    k6, _, x6, _, rfl, h6, rfl, rfl, rfl⟩ e ⟨p1, p2, p3, p4⟩
  simp only at p1 p2 p3 p4
  simp only [List.append_assoc, List.append_nil] at e ⊢
  obtain ⟨rfl, e, _⟩ := typeRef (by have := hw.type; omega) _ _ _ _ _ _ h1 e trivial
  obtain ⟨rfl, e, q2⟩ := nat hw.findex _ _ _ _ _ _ h2 e p1
  obtain ⟨rfl, e, q3⟩ := nat hw.nregs _ _ _ _ _ _ h3 e p2
  obtain ⟨rfl, e, q4⟩ := nat hw.nops _ _ _ _ _ _ h4 e p3
  subst p2 p3
  obtain ⟨rfl, e, _⟩ := many' f.regs (fun t h => typeRef (by have := hw.regs t h; omega)) _ _ _ _ _ _ h5 e trivial
  obtain ⟨rfl, rfl, q6⟩ := many (f := id) f.ops (fun o h => opcode (hw.ops o h)) _ _ _ _ _ _ h6 e (by simpa using p4)
  exact ⟨rfl, rfl, q2, q3, q4, q6⟩

theorem function {m : RModule} (ht : m.types.length < 2 ^ 29) (hd : m.debugFiles.length < 2 ^ 29) {f : RFunction} (hw : f.Writable m)
    {p : Profile} {b c : Code} {k v c' r r'} (hb : b.hasdebug = if m.hasDebug then 1 else 0) (hver : b.version = m.version)
    (hc : c.ndebugfiles = m.debugFiles.length) (hg : functionWithDebugG p b c k v c') (e : k ++ r = f.encode m ++ r') (hv : v = f.decoded m) :
    k = f.encode m ∧ r = r' ∧ f.Good m := by
  obtain ⟨k1, k2, f0, c1, rfl, h1, h2⟩ := hg
  have henc : f.encode m = (ix f.type ++ (ix f.findex ++ (ix f.regs.length ++ (ix f.ops.length ++ (f.regs.flatMap ix ++ f.ops.flatMap Instr.encode))))) ++
      (if m.hasDebug then f.debug.flatMap DbgItem.encode ++
        (if 3 ≤ m.version then ix f.assigns.length ++ f.assigns.flatMap fun a => ix a.1 ++ hlIndex a.2 else []) else []) := by
    simp [RFunction.encode]
  rw [henc] at e ⊢
  rw [List.append_assoc, List.append_assoc _ _ r'] at e
  have hf0 : v.findex = f0.findex ∧ v.nregs = f0.nregs ∧ v.nops = f0.nops ∧ v.ops = f0.ops := by
    split at h2
    · obtain ⟨_, _, _, _, _, _, _, rfl, _⟩ := h2; exact ⟨rfl, rfl, rfl, rfl⟩
    · obtain ⟨_, rfl, _⟩ := h2; exact ⟨rfl, rfl, rfl, rfl⟩
  subst hv
  obtain ⟨rfl, e, q1, q2, q3, q4⟩ := functionG ht hw _ _ _ _ _ _ h1 e ⟨hf0.1.symm, hf0.2.1.symm, hf0.2.2.1.symm, hf0.2.2.2.symm⟩
  have hn0 : f0.nops = f.ops.length := hf0.2.2.1.symm
  have good : f.Good m := ⟨hw.type, q1, q2, hw.regs, q3, q4, hw.debug, hw.assigns⟩
  have hc1 : c1.ndebugfiles = m.debugFiles.length := by
    obtain ⟨u, rfl⟩ := KeepsButCache.of KeepsOn.functionG _ _ _ _ h1
    exact hc
  suffices h : k2 = (if m.hasDebug then f.debug.flatMap DbgItem.encode ++
        (if 3 ≤ m.version then ix f.assigns.length ++ f.assigns.flatMap fun a => ix a.1 ++ hlIndex a.2 else []) else []) ∧ r = r' from
    ⟨by rw [h.1], h.2, good⟩
  by_cases hdb : m.hasDebug = true
  · rw [if_pos hdb] at hb
    rw [if_pos (by omega)] at h2
    rw [if_pos hdb] at e ⊢
    obtain ⟨d1, d2, d3⟩ := hw.debug hdb
    rw [hn0, hver] at h2
    obtain ⟨kd, _, w, c2, rfl, ⟨k3, k4, w', c3, rfl, h3, h4⟩, rfl, _, rfl⟩ := h2
    rw [List.append_nil]
    simp only [List.append_assoc, List.append_nil] at e
    obtain ⟨rfl, e2⟩ := debugInfos p _ f.debug c1 (by omega) (by rw [hc1]; exact d1) d3 d2 h3 e
    clear e
    have e := e2
    clear e2
    by_cases h3v : 3 ≤ m.version
    · simp only [ge_iff_le, if_pos h3v] at h4 e ⊢
      obtain ⟨k5, _, u, c4, rfl, h5, rfl, _, rfl⟩ := h4
      rw [List.append_nil] at e ⊢
      obtain ⟨rfl, rfl, _⟩ := assigns f.assigns hw.assigns _ _ _ _ _ _ h5 e trivial
      exact ⟨rfl, rfl⟩
    · simp only [ge_iff_le, if_neg h3v] at h4 e ⊢
      obtain ⟨rfl, _, rfl⟩ := h4
      exact ⟨rfl, e⟩
  · rw [if_neg hdb] at hb
    rw [if_neg (by omega)] at h2
    rw [if_neg hdb] at e ⊢
    obtain ⟨rfl, _, rfl⟩ := h2
    exact ⟨rfl, e⟩

end Back

/-! ## Loops -/

/-- `k` consists of phrases with the values `vs`. -/
inductive Phs {V : Type} (ph : List UInt8 → V → Prop) : List UInt8 → List V → Prop where
  | nil : Phs ph [] []
  | cons {k k' : List UInt8} {v : V} {vs : List V} : ph k v → Phs ph k' vs → Phs ph (k ++ k') (v :: vs)

theorem loop_phs {V : Type} {step : Nat → Code → G Code} {ph : List UInt8 → V → Prop} {R : Nat → Code → List V → Prop}
    (hstep : ∀ i b l c k b' c', R i b l → step i b c k b' c' → ∃ v, ph k v ∧ R (i + 1) b' (l ++ [v])) :
    ∀ (n a : Nat) (b : Code) (l : List V) (c : Code) (k : List UInt8) (b' c' : Code), R a b l → G.loop step a n b c k b' c' →
      ∃ vs, Phs ph k vs ∧ R (a + n) b' (l ++ vs) ∧ vs.length = n
  | 0, a, b, l, c, k, b', c', hr, ⟨h1, h2, h3⟩ => by
    subst h1 h2 h3
    exact ⟨[], .nil, by simpa using hr, rfl⟩
  | n + 1, a, b, l, c, k, b', c', hr, ⟨k1, k2, b1, c1, hk, h1, h2⟩ => by
    subst hk
    obtain ⟨v, hv, hr1⟩ := hstep a b l c k1 b1 c1 hr h1
    obtain ⟨vs, h3, h4, h5⟩ := loop_phs hstep n (a + 1) b1 (l ++ [v]) c1 k2 b' c' hr1 h2
    exact ⟨v :: vs, .cons hv h3, by rw [show a + (n + 1) = a + 1 + n by omega]; simpa using h4, by simp [h5]⟩

theorem Phs.back {V X : Type} {ph : List UInt8 → V → Prop} {enc : X → List UInt8} {P : X → V → Prop} {Q : X → Prop} :
    ∀ (xs : List X) (vs : List V) (k r r' : List UInt8),
    (∀ x ∈ xs, ∀ k v r r', ph k v → k ++ r = enc x ++ r' → P x v → k = enc x ∧ r = r' ∧ Q x) →
    Phs ph k vs → vs.length = xs.length → (∀ (i : Nat) x v, xs[i]? = some x → vs[i]? = some v → P x v) → k ++ r = xs.flatMap enc ++ r' →
    k = xs.flatMap enc ∧ r = r' ∧ ∀ x ∈ xs, Q x
  | [], _, k, r, r', _, h, hl, _, e => by
    cases h with
    | nil => exact ⟨rfl, e, by simp⟩
    | cons => simp at hl
  | x :: xs, _, k, r, r', hx, h, hl, hp, e => by
    cases h with
    | nil => simp at hl
    | @cons k1 k2 v vs h1 h2 =>
      simp only [List.flatMap_cons, List.append_assoc] at e ⊢
      obtain ⟨rfl, e, q⟩ := hx x (by simp) k1 v _ _ h1 e (hp 0 x v rfl rfl)
      obtain ⟨rfl, rfl, q'⟩ := Phs.back xs vs k2 r r' (fun y hy => hx y (by simp [hy])) h2 (by simpa using hl)
        (fun i y w h h' => hp (i + 1) y w (by simpa using h) (by simpa using h')) e
      refine ⟨rfl, rfl, ?_⟩
      intro y hy
      rcases List.mem_cons.1 hy with rfl | hy
      · exact q
      · exact q' y hy

theorem types_phs (N : Nat) {b c : Code} {k : List UInt8} {b' c' : Code} (hb : b.types = List.replicate N noType) {n : Nat}
    (h : G.loop typesStepG 0 n b c k b' c') :
    ∃ vs, Phs (fun k v => ∃ d d', typeG d k v d') k vs ∧ b'.types = vs ++ List.replicate N noType ∧ vs.length = n := by
  obtain ⟨vs, h1, ⟨h2, _⟩, h3⟩ := loop_phs (ph := fun k v => ∃ d d', typeG d k v d')
    (R := fun i b l => b.types = l ++ List.replicate N noType ∧ l.length = i) (fun i b l c k b' c' hr h => by
      obtain ⟨_, _, _, _, rfl, ⟨rfl, rfl⟩, kt, _, t, _, rfl, h, _, _, _, _, rfl, ⟨rfl, rfl, rfl⟩, _, _, _, _, rfl, ⟨rfl, _, rfl⟩, _, _, _, _, rfl, ⟨rfl, rfl⟩, rfl, rfl, rfl⟩ := h
      refine ⟨t, ⟨_, _, by simpa using h⟩, ?_⟩
      obtain ⟨u, rfl⟩ := KeepsButCache.typeG _ _ _ _ h
      refine ⟨?_, by simp [hr.2]⟩
      show List.insertIdx _ i t = _
      rw [hr.1, ← hr.2, insertIdx_append_length]) n 0 b [] c k b' c' ⟨by simpa using hb, rfl⟩ h
  exact ⟨vs, h1, by simpa using h2, h3⟩

theorem globals_phs (N : Nat) {b c : Code} {k : List UInt8} {b' c' : Code} (hb : b.globals = List.replicate N noType) {n : Nat}
    (h : G.loop globalsStepG 0 n b c k b' c') : ∃ vs, Phs (fun k v => ∃ d d', typeRefG d k v d') k vs ∧ vs.length = n := by
  obtain ⟨vs, h1, _, h3⟩ := loop_phs (ph := fun k v => ∃ d d', typeRefG d k v d')
    (R := fun _ _ _ => True) (fun i b l c k b' c' hr h => by
      obtain ⟨_, _, _, _, rfl, ⟨rfl, rfl⟩, kt, _, t, _, rfl, h, _, _, _, _, rfl, ⟨rfl, _, rfl⟩, _, _, _, _, rfl, ⟨rfl, rfl⟩, rfl, rfl, rfl⟩ := h
      exact ⟨t, ⟨_, _, by simpa using h⟩, trivial⟩) n 0 b [] c k b' c' trivial h
  exact ⟨vs, h1, h3⟩

theorem natives_phs {b c : Code} {k : List UInt8} {b' c' : Code} (hb : b.natives = []) {n : Nat}
    (h : G.loop nativesStepG 0 n b c k b' c') : Phs (fun k v => ∃ d d', nativeG d k v d') k b'.natives := by
  obtain ⟨vs, h1, h2, h3⟩ := loop_phs (ph := fun k v => ∃ d d', nativeG d k v d')
    (R := fun _ b l => b.natives = l) (fun i b l c k b' c' hr h => by
      obtain ⟨kt, _, t, _, rfl, h, _, _, _, _, rfl, ⟨rfl, rfl⟩, rfl, rfl, rfl⟩ := h
      exact ⟨t, ⟨_, _, by simpa using h⟩, by simp [hr]⟩) n 0 b [] c k b' c' hb h
  rw [List.nil_append] at h2
  rw [h2]; exact h1

theorem functions_phs {p : Profile} (b0 : Code) {c : Code} {k : List UInt8} {b' c' : Code} (hb : b0.functions = []) {n : Nat}
    (h : G.loop (functionsStepG p) 0 n b0 c k b' c') :
    Phs (fun k v => ∃ b d, (∃ fs, b = { b0 with functions := fs }) ∧ functionWithDebugG p b b k v d) k b'.functions := by
  obtain ⟨vs, h1, ⟨h2, _⟩, h3⟩ := loop_phs (ph := fun k v => ∃ b d, (∃ fs, b = { b0 with functions := fs }) ∧ functionWithDebugG p b b k v d)
    (R := fun _ b l => b.functions = l ∧ ∃ fs, b = { b0 with functions := fs }) (fun i b l c k b' c' hr h => by
      obtain ⟨_, _, _, _, rfl, ⟨rfl, rfl⟩, kt, _, t, _, rfl, h, _, _, _, _, rfl, ⟨rfl, rfl⟩, rfl, rfl, rfl⟩ := h
      obtain ⟨fs, rfl⟩ := hr.2
      have hf : fs = l := hr.1
      subst hf
      exact ⟨t, ⟨_, _, ⟨_, rfl⟩, by simpa using h⟩, ⟨rfl, ⟨_, rfl⟩⟩⟩) n 0 b0 [] c k b' c' ⟨hb, b0.functions, rfl⟩ h
  rw [List.nil_append] at h2
  rw [h2]; exact h1

theorem constants_phs {b c : Code} {k : List UInt8} {b' c' : Code} (hb : b.constants = []) {n : Nat}
    (h : G.loop constantsStepG 0 n b c k b' c') : Phs (fun k v => ∃ d d', constantG d k v d') k b'.constants := by
  obtain ⟨vs, h1, ⟨h2, _⟩, h3⟩ := loop_phs (ph := fun k v => ∃ d d', constantG d k v d')
    (R := fun i b l => b.constants = l ∧ l.length = i) (fun i b l c k b' c' hr h => by
      obtain ⟨kt, _, t, _, rfl, h, _, _, _, _, rfl, ⟨rfl, _, rfl⟩, _, _, _, _, rfl, ⟨rfl, rfl⟩, rfl, rfl, rfl⟩ := h
      refine ⟨t, ⟨_, _, by simpa using h⟩, ?_, by simp [hr.2]⟩
      show List.insertIdx _ i t = _
      have := insertIdx_append_length l [] t
      rw [hr.1, ← hr.2]
      simpa using this) n 0 b [] c k b' c' ⟨hb, rfl⟩ h
  rw [List.nil_append] at h2
  rw [h2]; exact h1

end Verif.Brass
