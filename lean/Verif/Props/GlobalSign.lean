import Verif.Props.Preimage

/-!
# The signature of a global (C70)
-/

namespace Verif.Brass

open Verif Verif.Brass.Spec CodeHash

namespace CodeHash

theorem loop_last {f : Nat → CodeHash → Rust CodeHash} {K : Nat → Nat → Prop} {s0 : CodeHash} {n a : Nat} {s s' : CodeHash}
    (hf : ∀ i, a ≤ i → i < a + n → ∀ s s', s.code = s0.code → f i s = .ret s' → Signs (K i) s s') (hc : s.code = s0.code)
    (e : Rust.forRange f a n s = .ret s') (k : Nat) :
    ((∀ i, a ≤ i → i < a + n → ¬ K i k) ∧ s'.globalsSigns[k]? = s.globalsSigns[k]?) ∨
    ∃ i x y, a ≤ i ∧ i < a + n ∧ K i k ∧ (∀ j, i < j → j < a + n → ¬ K j k) ∧ Signs (fun _ => True) s x ∧ f i x = .ret y ∧
      s'.globalsSigns[k]? = y.globalsSigns[k]? := by
  rcases exists_last (fun i => a ≤ i ∧ K i k) (a + n) with h | ⟨i, h1, ⟨h2, h3⟩, h4⟩
  · left
    refine ⟨fun i h1 h2 h3 => h i h2 ⟨h1, h3⟩, ?_⟩
    exact (Signs.forRange n a s s' hf hc e).same k fun ⟨i, h1, h2, h3⟩ => h i h2 ⟨h1, h3⟩
  · right
    rw [show n = (i - a) + (1 + (n - (i - a) - 1)) from by omega, forRange_add] at e
    cases e1 : Rust.forRange f a (i - a) s with
    | panic => rw [e1] at e; cases e
    | ret x =>
      rw [e1] at e; simp only [Rust.bind_ret] at e
      rw [show a + (i - a) = i from by omega, forRange_add] at e
      cases e2 : f i x with
      | panic => simp [Rust.forRange, e2] at e
      | ret y =>
        simp only [Rust.forRange, e2, Rust.bind_ret] at e
        have g1 := Signs.forRange (s0 := s0) (K := K) _ _ _ _ (fun j h1 h2 => hf j h1 (by omega)) hc e1
        have g2 := hf i h2 h1 x y (g1.code.trans hc) e2
        have g3 := Signs.forRange (s0 := s0) (K := K) _ _ _ _ (fun j h1 h2 => hf j (by omega) (by omega)) (g2.code.trans (g1.code.trans hc)) e
        refine ⟨i, x, y, h2, h1, h3, fun j h5 h6 h7 => h4 j h5 h6 ⟨by omega, h7⟩, g1.mono fun _ _ => trivial, e2, ?_⟩
        exact g3.same k fun ⟨j, h5, h6, h7⟩ => h4 j (by omega) (by omega) ⟨by omega, h7⟩

theorem set_value {s s' : CodeHash} {k : Nat} {x : UInt32}
    (e : (Rust.set s.globalsSigns k x >>= fun v => pure { s with globalsSigns := v }) = .ret s') : s'.globalsSigns[k]? = some x := by
  cases e1 : Rust.set s.globalsSigns k x with
  | panic => rw [e1] at e; cases e
  | ret w =>
    rw [e1] at e
    cases e
    obtain ⟨h1, rfl⟩ := set_eq.1 e1
    simp [h1]

theorem globalStep_abstract {i : Nat} {s s' : CodeHash} (e : globalStep i s = .ret s') {t : ValueType} (ht : s.code.globals[i]? = some t)
    (hk : t.kind = .HABSTRACT) : ∃ x, s.codeHashType t = .ret x ∧ s'.globalsSigns[i]? = some x := by
  unfold globalStep at e
  cases e1 : Rust.set s.globalsSigns i (UInt32.ofNat (i ||| 0x80000000)) with
  | panic => rw [e1] at e; cases e
  | ret w =>
    simp only [e1, get_eq.2 ht, Rust.bind_ret, hk, if_true] at e
    cases e2 : s.codeHashType t with
    | panic => rw [e2] at e; cases e
    | ret x =>
      rw [e2] at e; simp only [Rust.bind_ret] at e
      exact ⟨x, rfl, set_value (s := { s with globalsSigns := w }) e⟩

theorem signGlobalOf_value {s s' : CodeHash} {t : ValueType} {g : Int} (e : s.signGlobalOf t [g] = .ret s') :
    ∃ x, s.codeHashType t = .ret x ∧ s'.globalsSigns[asUsize (g - 1)]? = some x := by
  unfold signGlobalOf at e
  cases e1 : s.codeHashType t with
  | panic => simp [e1] at e
  | ret x =>
    simp only [e1, Rust.bind_ret, show Rust.get [g] 0 = .ret g from rfl] at e
    exact ⟨x, rfl, set_value e⟩

theorem zip_getElem? {α β : Type} : ∀ (l : List α) (m : List β) (i : Nat) (a : α) (b : β), l[i]? = some a → m[i]? = some b → (l.zip m)[i]? = some (a, b)
  | a :: l, b :: m, 0, _, _, h, h' => by cases h; cases h'; rfl
  | a :: l, b :: m, i + 1, x, y, h, h' => zip_getElem? l m i x y h h'
  | [], _, _, _, _, h, _ => by cases h
  | _ :: _, [], _, _, _, _, h => by cases h

theorem constantFields_value {c : Code} {con : Constant} {g : ValueType} (hn : con.fields.length = con.nfields) {h h' : Hasher}
    (e : Rust.forRange (constantField c con g) 0 con.nfields h = .ret h') : h' = h.write (constantBytes c con g) := by
  obtain ⟨u, ab, tp, kd⟩ := g
  have skip : (∀ i, i < con.fields.length → ∀ h, constantField c con ⟨u, ab, tp, kd⟩ i h = .ret h) → objectFields ⟨u, ab, tp, kd⟩ = none →
      h' = h.write (constantBytes c con ⟨u, ab, tp, kd⟩) := by
    intro hs ho
    have := forRange_states (f := constantField c con ⟨u, ab, tp, kd⟩) (st := fun _ => h) con.nfields 0 (fun i _ hi => hs i (by omega) h)
    rw [this] at e
    cases e
    simp [constantBytes, ho, Hasher.write_nil]
  cases u
  case obj n1 n2 fields n3 n4 n5 n6 n7 n8 n9 =>
    have inv := forRange_inv (Inv := fun i (b : Hasher) => i ≤ fields.length ∧ b = h.write (((fields.map ObjField.t).zip con.fields).take i |>.flatMap fun (t, x) =>
        match t.kind with
        | .HI32 => c.ints[x]?.toList.flatMap signed32
        | .HBYTES => c.strings[x]?.toList.flatten
        | _ => [])) _ _ _ _ ?_ ⟨Nat.zero_le _, by simp [Hasher.write_nil]⟩ e
    · obtain ⟨h1, h2⟩ := inv
      rw [h2, constantBytes]
      rw [List.take_of_length_le (by simp; omega)]
      rfl
    · rintro i _ hi b b' ⟨hl, hb⟩ e
      have hi' : i < con.fields.length := by omega
      have hx := List.getElem?_eq_getElem hi'
      generalize con.fields[i] = x at hx
      unfold constantField at e
      simp only [get_eq.2 hx, Rust.bind_ret] at e
      cases e1 : Rust.get fields i with
      | panic => simp [e1] at e
      | ret f =>
        have e1' := get_eq.1 e1
        have hf := (List.getElem?_eq_some_iff.1 e1').1
        simp only [e1, Rust.bind_ret] at e
        refine ⟨by omega, ?_⟩
        rw [List.take_add_one, zip_getElem? _ _ i f.t x (by rw [List.getElem?_map, e1']; rfl) hx]
        simp only [Option.toList_some, List.flatMap_append, List.flatMap_singleton, write2, ← hb]
        split at e
        · rename_i hk
          cases e2 : Rust.get c.ints x with
          | panic => simp [e2] at e
          | ret y =>
            rw [e2] at e
            cases e
            simp [hk, get_eq.1 e2, write_signed32]
        · rename_i hk
          cases e2 : Rust.get c.strings x with
          | panic => simp [e2] at e
          | ret y =>
            rw [e2] at e
            cases e
            simp [hk, get_eq.1 e2]
        · rename_i h1 h2
          cases e
          have : ∀ (k : TypeKind) (A B : List UInt8), k ≠ .HI32 → k ≠ .HBYTES → (match k with | .HI32 => A | .HBYTES => B | _ => []) = [] := by
            intro k A B; cases k <;> simp
          rw [this _ _ _ h1 h2, Hasher.write_nil]
  all_goals exact skip (fun i hi h => by unfold constantField; simp [get_eq.2 (List.getElem?_eq_getElem hi)]) rfl

theorem constantStep_value {i : Nat} {s s' : CodeHash} {con : Constant} (e : constantStep i s = .ret s') (hi : s.code.constants[i]? = some con)
    (hn : con.fields.length = con.nfields) : ∃ g, s.code.globals[con.global]? = some g ∧ s'.globalsSigns[con.global]? = some (crc (constantBytes s.code con g)) := by
  unfold constantStep at e
  simp only [get_eq.2 hi, Rust.bind_ret] at e
  cases e1 : Rust.get s.code.globals con.global with
  | panic => simp [e1] at e
  | ret g =>
    simp only [e1, Rust.bind_ret] at e
    cases e2 : Rust.forRange (constantField s.code con g) 0 con.nfields Hasher.new with
    | panic => simp [e2] at e
    | ret h =>
      simp only [e2, Rust.bind_ret] at e
      refine ⟨g, get_eq.1 e1, ?_⟩
      rw [← crc_finalize, ← constantFields_value hn e2]
      exact set_value e

theorem bootStep_value {f : HLFunction} {i : Nat} {s s' : CodeHash} (e : bootStep f i s = .ret s') (he : enumSet s.code f i) :
    ∃ o b p1 p2 x, f.ops[i]? = some o ∧ f.ops[i - 3]? = some b ∧ o.p1 = some p1 ∧ b.p2 = some p2 ∧ s.code.ints[asUsize p2]? = some x ∧
      s'.globalsSigns[asUsize p1]? = some (i32Bits x) := by
  obtain ⟨⟨o, h1, h2⟩, ⟨g, h3, h4⟩, ⟨a, h5, h6⟩, ⟨b, h7, h8⟩⟩ := he
  unfold bootStep at e
  simp only [get_eq.2 h1, Rust.bind_ret, h2, if_true, get_eq.2 h3, h4, get_eq.2 h5, h6, get_eq.2 h7, h8] at e
  cases e1 : b.p2 with
  | none => simp [e1] at e
  | some p2 =>
    simp only [e1, Rust.unwrap_some, Rust.bind_ret] at e
    cases e2 : Rust.get s.code.ints (asUsize p2) with
    | panic => simp [e2] at e
    | ret x =>
      simp only [e2, Rust.bind_ret] at e
      cases e3 : o.p1 with
      | none => simp [e3] at e
      | some p1 =>
        simp only [e3, Rust.unwrap_some, Rust.bind_ret] at e
        exact ⟨o, b, p1, p2, x, h1, h7, e3, e1, get_eq.1 e2, set_value e⟩

theorem typeSign_of {c : Code} {s : CodeHash} (hc : s.code = c) (hW : ∀ i t, i < c.ntypes → c.types[i]? = some t → s.typeHashes[i]? = some (tableHash t))
    {t : ValueType} (ht : c.IsType t) : s.codeHashType t = .ret (typeSign t) := by
  obtain ⟨j, k1, k2, k3⟩ := position_declared ht
  unfold codeHashType writeType CodeHash.typeHash
  rw [hc, k1]
  simp only [Rust.bind_ret, get_eq.2 (hW j t k2 k3)]
  rw [← write_word]
  simp only [Rust.pure_eq, Rust.bind_ret, crc_finalize]
  rfl

end CodeHash

/-- **C70** The signature of every declared global of an accepted file after `alloc` is what its source gives, combined with the
hash of its type. -/
theorem c70_signature (p : Profile) (e : Option DecodeError) (buf : List UInt8) (c : Code) (st : St) (h : Code.read p e buf = .ok c st)
    (ch : CodeHash) (a : alloc c = .ret ch) (i : Nat) (hi : i < c.nglobals) (t : ValueType)
    (ht : c.globals[i]? = some t) :
    ∃ f x, BootFunction c f ∧ GlobalSource c f i x ∧ ch.globalsSigns[i]? = some (x ^^^ typeSign t) := by
  have L := loaded h
  have H := (c51_alloc_returns_iff p e buf c st h).1 ⟨ch, a⟩
  obtain ⟨S⟩ := stages a
  have hng := L.nglobals
  have hW : ∀ s : CodeHash, Mid c S.v S.W s → ∀ t, c.IsType t → s.codeHashType t = .ret (typeSign t) := by
    intro s m t ht
    refine typeSign_of m.code (fun j t hj ht => ?_) ht
    rw [m.hashes, ← (S.mid6 L).hashes]
    exact c66_type_table p e buf c st h ch a j hj t ht
  have mid_of : ∀ {s x : CodeHash}, Mid c S.v S.W s → Signs (fun _ => True) s x → Mid c S.v S.W x := fun m g => m.of_signs g
  -- the last step
  obtain ⟨a6, b6, k1, k2, k3⟩ := signs_split (fun i s s' e => globalTypeStep_signs e) S.last hi
  obtain ⟨t', x6, g, w1, w2, w3, w4⟩ := globalTypeStep_value k2
  rw [k1.code, (S.mid5 L).code, ht] at w1; cases w1
  rw [hW a6 ((S.mid5 L).of_signs k1) t (L.globalsRefer i t hi ht)] at w2; cases w2
  rw [k1.same i (by simp)] at w3
  have v6 : ch.globalsSigns[i]? = some (g ^^^ typeSign t) := by rw [k3.same i (by simp), w4]
  -- the boot function
  obtain ⟨j, f, b1, b2, b3⟩ := boot_eq (S.mid4 L).code S.boot
  rw [(S.mid4 L).indexes] at b1
  obtain ⟨hf, _⟩ := boot_found L S.indexes b1 b2
  have hfm : f ∈ c.functions := by rcases hf with ⟨i, h1, _⟩ | ⟨_, h1⟩ <;> exact List.mem_of_getElem? h1
  have hfo := (L.functionsOk f hfm).ops
  have op1 : ∀ (n : Nat) (o : Opcode) (x : Int), 4 ≤ n → enumSet c f n → f.ops[n]? = some o → o.p1 = some x → asUsize x = i → x = (i : Int) := by
    intro n o x h1 h2 h3 h4 h5
    obtain ⟨b, hb, _⟩ := h2.2.2.2
    obtain ⟨_, y, hy1, hy2⟩ := H.bootEnums f hf n o b h1 h2 h3 hb
    rw [h4] at hy1; cases hy1
    unfold asUsize at h5; omega
  have lt_ops : ∀ (i : Nat) (o : Opcode), f.ops[i]? = some o → i < f.nops := by
    intro i o ho
    rw [← hfo]
    exact (List.getElem?_eq_some_iff.1 ho).1
  refine ⟨f, g, hf, ?_, v6⟩
  have boot_K : ∀ n, SetByBoot c f i n → 4 ≤ n ∧ n < 4 + (f.nops - 4) ∧ (enumSet c f n ∧ ∃ o x, f.ops[n]? = some o ∧ o.p1 = some x ∧ asUsize x = i) := by
    rintro n ⟨h1, h2, o, h3, h4⟩
    have := lt_ops n o h3
    exact ⟨h1, by omega, h2, o, i, h3, h4, asUsize_nat (by omega)⟩
  rcases loop_last (K := fun n k => enumSet c f n ∧ ∃ o x, f.ops[n]? = some o ∧ o.p1 = some x ∧ asUsize x = k) (s0 := S.s4) (fun n _ _ s s' hs e => by
      have := bootStep_signs e
      rwa [hs, (S.mid4 L).code] at this) rfl b3 i with ⟨n5, q5⟩ | ⟨n, x, y, h1, h2, ⟨h3, o, z, h4, h5, h6⟩, h7, h8, h9, h10⟩
  case inr =>
    have mx := mid_of (S.mid4 L) h8
    obtain ⟨o', b, p1, p2, x', r1, r2, r3, r4, r5, r6⟩ := bootStep_value h9 (by rw [mx.code]; exact h3)
    rw [h4] at r1; cases r1
    rw [h5] at r3; cases r3
    rw [h6] at r6
    rw [h10, r6] at w3; cases w3
    rw [mx.code] at r5
    obtain ⟨⟨y', hy1, hy2, hy3⟩, _⟩ := H.bootEnums f hf n o b h1 h3 h4 r2
    rw [r4] at hy1; cases hy1
    have hz := op1 n o z h1 h3 h4 h5 h6
    obtain ⟨q, rfl⟩ := Int.eq_ofNat_of_zero_le hy2
    have hints := L.ints
    rw [asUsize_nat (by omega)] at r5
    refine GlobalSource.boot n b q x' ⟨⟨h1, h3, o, h4, by rw [h5, hz]⟩, ?_⟩ r2 r4 r5
    intro m hm hm'
    obtain ⟨_, g2, g3⟩ := boot_K m hm'
    exact h7 m hm g2 g3
  have nb : ∀ n, ¬ SetByBoot c f i n := fun n hn => by
    obtain ⟨g1, g2, g3⟩ := boot_K n hn
    exact n5 n g1 g2 g3
  rw [q5] at w3
  -- the constants
  have con_K : ∀ n, SetByConstant c i n → n < 0 + c.nconstants := by
    rintro n ⟨k, h1, h2⟩
    have := (List.getElem?_eq_some_iff.1 h1).1
    have := L.constants
    omega
  rcases loop_last (K := fun n k => ∃ con, c.constants[n]? = some con ∧ con.global = k) (s0 := S.s3) (fun n _ _ s s' hs e => by
      have := constantStep_signs e
      rwa [hs, (S.mid3 L).code] at this) rfl S.constants i with ⟨n4, q4⟩ | ⟨n, x, y, h1, h2, ⟨con, h3, h4⟩, h7, h8, h9, h10⟩
  case inr =>
    have mx := mid_of (S.mid3 L) h8
    obtain ⟨g', r1, r2⟩ := constantStep_value h9 (by rw [mx.code]; exact h3) (L.constantsOk con (List.mem_of_getElem? h3))
    rw [mx.code, h4] at r1
    rw [h4] at r2
    rw [h10, r2, mx.code] at w3; cases w3
    exact GlobalSource.constant n con g' nb ⟨⟨con, h3, h4⟩, fun m hm hm' => h7 m hm (con_K m hm') hm'⟩ h3 r1
  have nc : ∀ n, ¬ SetByConstant c i n := fun n hn => n4 n (Nat.zero_le _) (con_K n hn) hn
  rw [q4] at w3
  -- the types
  have type_K : ∀ n, SetByType c i n → n < 0 + c.ntypes ∧ ∃ t g, c.types[n]? = some t ∧ globalOf t = some g ∧ asUsize (g - 1) = i := by
    rintro n ⟨h1, t, h2, h3⟩
    exact ⟨by omega, t, _, h2, h3, by rw [Int.add_sub_cancel]; exact asUsize_nat (by omega)⟩
  rcases loop_last (K := fun n k => ∃ t g, c.types[n]? = some t ∧ globalOf t = some g ∧ asUsize (g - 1) = k) (s0 := S.s2) (fun n _ hn s s' hs e => by
      have hcode : s.code = c := hs.trans S.mid2.code
      obtain ⟨t, ht⟩ := L.declared (i := n) (by omega)
      refine (typeGlobalStep_signs (by rw [hcode]; exact ht) (L.typesOk n t (by omega) ht) e).mono ?_
      rintro k ⟨g, hg, hk⟩
      exact ⟨t, g, ht, hg, hk⟩) rfl S.typeGlobals i with ⟨n3, q3⟩ | ⟨n, x, y, h1, h2, ⟨tt, gg, h3, h4, h5⟩, h7, h8, h9, h10⟩
  case inr =>
    have mx := mid_of S.mid2 h8
    rw [typeGlobalStep_eq (by rw [mx.code]; exact h3) (L.typesOk n tt (by omega) h3), h4] at h9
    obtain ⟨z, r1, r2⟩ := signGlobalOf_value h9
    rw [hW x mx tt ⟨n, by omega, h3⟩] at r1; cases r1
    rw [h5] at r2
    rw [h10, r2] at w3; cases w3
    have hr := H.typeGlobals n tt gg (by omega) h3 h4
    have hgg : gg = (i : Int) + 1 := by unfold asUsize at h5; omega
    exact GlobalSource.type n tt nb nc ⟨⟨by omega, tt, h3, by rw [h4, hgg]⟩, fun m hm hm' => h7 m hm (type_K m hm').1 (type_K m hm').2⟩ h3
  have nt : ∀ n, ¬ SetByType c i n := fun n hn => n3 n (Nat.zero_le _) (type_K n hn).1 (type_K n hn).2
  rw [q3] at w3
  -- the global itself
  obtain ⟨a1, d1, g1, g2, g3⟩ := signs_split (fun i s s' e => globalStep_signs e) S.globals hi
  have m1 := S.mid1.of_signs g1
  rw [g3.same i (by simp)] at w3
  by_cases hk : t.kind = .HABSTRACT
  · obtain ⟨x, r1, r2⟩ := globalStep_abstract g2 (t := t) (by rw [m1.code]; exact ht) hk
    rw [hW a1 m1 t (L.globalsRefer i t hi ht)] at r1; cases r1
    rw [r2] at w3; cases w3
    exact GlobalSource.abstract t nb nc nt ht hk
  · have v1 := globalStep_value g2 (t := t) (by rw [m1.code]; exact ht) hk
    rw [v1] at w3; cases w3
    have := Nat.two_pow_add_eq_or_of_lt (i := 31) (b := i) (by omega) 1
    rw [Nat.or_comm, show (0x80000000 : Nat) = 2 ^ 31 * 1 from rfl, ← this, Nat.mul_one, Nat.add_comm]
    exact GlobalSource.position t nb nc nt ht hk

theorem last_unique {P : Nat → Prop} {i j : Nat} (h : Last P i) (h' : Last P j) : i = j := by
  rcases Nat.lt_trichotomy i j with h1 | h1 | h1
  · exact absurd h'.1 (h.2 j h1)
  · exact h1
  · exact absurd h.1 (h'.2 i h1)

/-- **C70** A global has one source only. -/
theorem c70_source_unique (c : Code) (f : HLFunction) (i : Nat) (x y : UInt32) (h : GlobalSource c f i x) (h' : GlobalSource c f i y) : x = y := by
  cases h <;> cases h'
  case boot.boot j b q z h1 h2 h3 h4 j' b' q' z' h1' h2' h3' h4' =>
    obtain rfl := last_unique h1 h1'
    rw [h2] at h2'; cases h2'
    rw [h3] at h3'; cases Int.ofNat.inj (Option.some.inj h3')
    rw [h4] at h4'; cases h4'; rfl
  case constant.constant j k g n1 h1 h2 h3 j' k' g' n1' h1' h2' h3' =>
    obtain rfl := last_unique h1 h1'
    rw [h2] at h2'; cases h2'
    rw [h3] at h3'; cases h3'; rfl
  case type.type j t n1 n2 h1 h2 j' t' n1' n2' h1' h2' =>
    obtain rfl := last_unique h1 h1'
    rw [h2] at h2'; cases h2'; rfl
  case abstract.abstract g n1 n2 n3 h1 h2 g' n1' n2' n3' h1' h2' =>
    rw [h1] at h1'; cases h1'; rfl
  case position.position => rfl
  all_goals simp_all [Last]

/-- **C70** (a defect) So the signature of a global of an abstract type without other source is always 0: the hash of its type is
combined with itself.  Two such globals are not distinguished. -/
theorem c70_abstract_zero (p : Profile) (e : Option DecodeError) (buf : List UInt8) (c : Code) (st : St) (h : Code.read p e buf = .ok c st)
    (ch : CodeHash) (a : alloc c = .ret ch) (i : Nat) (hi : i < c.nglobals) (t : ValueType)
    (ht : c.globals[i]? = some t) (hk : t.kind = .HABSTRACT) (nb : ∀ f, BootFunction c f → ∀ j, ¬ SetByBoot c f i j)
    (nc : ∀ j, ¬ SetByConstant c i j) (nt : ∀ j, ¬ SetByType c i j) : ch.globalsSigns[i]? = some 0 := by
  obtain ⟨f, x, h1, h2, h3⟩ := c70_signature p e buf c st h ch a i hi t ht
  cases c70_source_unique c f i x _ h2 (GlobalSource.abstract t (nb f h1) nc nt ht hk)
  simpa using h3

/-! ## Examples -/

/-- A file with the types `i32`, `i32 -> i32`, bytes, an object with a field of type `i32` and one of type bytes (and global 0), an
enum with a construct with a parameter (and global 1), an abstract type and a reference; five globals of which one has a constant
(0), one belongs to a type (1), one is abstract (2), one is an integer (3), and one is set in the boot function (4). -/
def exRich : List UInt8 := [0x48, 0x4C, 0x42, 4, 0, 1, 0, 2, 7, 5, 0, 1, 1, 0,
  7, 0, 0, 0, 4, 0, 0, 0, 0x61, 0, 0x62, 0, 1, 1,
  3, 10, 1, 0, 0, 8, 11, 0, 0xA0, 1, 1, 2, 0, 0, 0, 0, 1, 2, 18, 0, 2, 1, 1, 1, 0, 17, 0, 14, 0,
  3, 4, 5, 0, 4,
  1, 0, 1, 5, 0,
  66, 1, 0, 0, 77, 0, 0, 0, 66, 37, 4, 0,
  0, 2, 0, 1]

/-- C65, C66 and C70: the hypotheses are met, and each of the five sources occurs. -/
example : ∃ c s ch, Code.read .release none exRich = .ok c s ∧ alloc c = .ret ch ∧ c.ntypes = 7 ∧ c.nglobals = 5 ∧
    (c.types.take 7).map (·.kind) = [.HI32, .HFUN, .HBYTES, .HOBJ, .HENUM, .HABSTRACT, .HREF] ∧
    ∃ g0 g1 g2 g3 g4, c.globals.take 5 = [g0, g1, g2, g3, g4] ∧
      ch.globalsSigns = [crc (signed32 7 ++ [0x62]) ^^^ typeSign g0, typeSign g1 ^^^ typeSign g1, typeSign g2 ^^^ typeSign g2,
        0x80000003 ^^^ typeSign g3, 7 ^^^ typeSign g4] := by
  have h : checkOk (Code.read .release none exRich) (fun c => match alloc c, c.globals.take 5 with
    | .ret ch, [g0, g1, g2, g3, g4] => decide (c.ntypes = 7 ∧ c.nglobals = 5 ∧
        (c.types.take 7).map (·.kind) = [.HI32, .HFUN, .HBYTES, .HOBJ, .HENUM, .HABSTRACT, .HREF] ∧
        ch.globalsSigns = [crc (signed32 7 ++ [0x62]) ^^^ typeSign g0, typeSign g1 ^^^ typeSign g1, typeSign g2 ^^^ typeSign g2,
          0x80000003 ^^^ typeSign g3, 7 ^^^ typeSign g4])
    | _, _ => false) = true := by decide +kernel
  obtain ⟨c, s, h1, h2⟩ := checkOk_iff h
  split at h2
  · rename_i ch g0 g1 g2 g3 g4 e1 e2
    obtain ⟨a1, a2, a4, a5⟩ := of_decide_eq_true h2
    exact ⟨c, s, ch, h1, e1, a1, a2, a4, g0, g1, g2, g3, g4, e2, a5⟩
  · cases h2

end Verif.Brass
