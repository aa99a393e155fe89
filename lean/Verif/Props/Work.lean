import Verif.Brass.Work
import Verif.Brass.WorkCount
import Verif.Brass.Report
import Verif.Brass.Threads
import Verif.Props.File

/-!
# C97: how often a call of `Code::read` touches the shared error record
-/

namespace Verif.Brass

open Verif Verif.Brass.Spec

/-! ## The header, access by access -/

theorem P.bind_done {α β : Type} {x : P α} {f : α → P β} {d d' : Dec} {a : α} (h : x d = .done (.ok a d')) : (x >>= f) d = f a d' := by
  show Tree.andThen (x d) _ = _
  rw [h]
  rfl

/-- A run that never accesses `ERRORS` is known from the sequential model. -/
theorem Untouched.eq_of_seq {α : Type} {x : P α} {y : M α} (hu : Untouched x) (hs : Sim x y) {d d' : Dec} {a : α}
    (h : y (d.st none) = .ok a (d'.st none)) : x d = .done (.ok a d') := by
  obtain ⟨r, hr⟩ := hu d
  have h1 := hs d none
  rw [hr, h] at h1
  rw [hr]
  cases r with
  | ok b d1 =>
    cases d1; cases d'
    simp only [Tree.run, Res.out, Dec.st, Out.ok.injEq, St.mk.injEq] at h1
    obtain ⟨rfl, rfl, rfl, rfl, _⟩ := h1
    rfl
  | err => cases h1
  | panic => cases h1

theorem par_nat {k : List UInt8} {n : Nat} (h : IdxBytes k (n : Int)) (rest : List UInt8) (pos : Nat) (c : Code) :
    Par.uindex ⟨k ++ rest, pos, c⟩ = .done (.ok n ⟨rest, pos + k.length, c⟩) := by
  have h1 : Par.index ⟨k ++ rest, pos, c⟩ = .done (.ok (n : Int) ⟨rest, pos + k.length, c⟩) :=
    Untouched.index.eq_of_seq Sim.index (Sem.index.complete c k n c trivial ⟨rfl, h⟩ rest pos)
  unfold Par.uindex
  rw [P.bind_done h1, if_neg (by omega)]
  rfl

theorem par_natIf {b : Prop} [Decidable b] {k : List UInt8} {n : Nat} {c c' : Code} (h : natIfG b c k n c') (rest : List UInt8) (pos : Nat) :
    Par.uindexIf (decide b) ⟨k ++ rest, pos, c⟩ = .done (.ok n ⟨rest, pos + k.length, c⟩) := by
  unfold Par.uindexIf
  unfold natIfG at h
  by_cases hb : b
  · rw [if_pos hb] at h
    rw [if_pos (by simpa using hb)]
    exact par_nat h.2 rest pos c
  · rw [if_neg hb] at h
    obtain ⟨rfl, rfl, _⟩ := h
    rw [if_neg (by simpa using hb)]
    rfl

theorem Untouched.readMagic : Untouched Par.readMagic :=
  bind decodeU8.unwrap fun _ => ite (failAt _) (bind decodeU8.unwrap fun _ => ite (failAt _)
    (bind decodeU8.unwrap fun _ => ite (failAt _) (pure _)))

/-- Everything after the counts of the header. -/
def afterHeader (p : Profile) (c : Code) : P Code :=
  Par.readPools c >>= fun c => Par.readBytesSection c >>= fun c => Par.readDebugFiles c >>= fun c => Par.readTypes c >>= fun c =>
      Par.readGlobals c >>= fun c => Par.readNatives c >>= fun c => Par.readFunctions p c >>= fun c => Par.readConstants c >>= fun _ =>
      P.getCode

/-- A call of `Code::read` past a header. -/
theorem par_header {p : Profile} {hd : Header} {kh : List UInt8} (hh : HeaderBytes hd kh) (body : List UInt8) :
    Par.read p (kh ++ body) = .get fun v => match v with
      | some e => .done (.err e ⟨body, kh.length, Code.new⟩)
      | none => afterHeader p hd.code ⟨body, kh.length, Code.new⟩ := by
  obtain ⟨v1, v2, v3, v4, k', rfl, hw⟩ := hh
  have hv : (UInt8.ofNat hd.version).toNat = hd.version := ofNat_toNat (by omega)
  unfold Par.read Par.readM
  simp only [List.cons_append]
  have h1 : Par.readMagic ⟨0x48 :: 0x4C :: 0x42 :: UInt8.ofNat hd.version :: (k' ++ body), 0, Code.new⟩ =
      .done (.ok () ⟨UInt8.ofNat hd.version :: (k' ++ body), 3, Code.new⟩) :=
    Untouched.readMagic.eq_of_seq Sim.readMagic (readMagic_ok _ _ _)
  rw [P.bind_done h1]
  clear h1
  have h2 : Par.readVersion ⟨UInt8.ofNat hd.version :: (k' ++ body), 3, Code.new⟩ = .done (.ok hd.version ⟨k' ++ body, 4, Code.new⟩) := by
    have h : P.unwrapRecord Par.decodeU8 ⟨UInt8.ofNat hd.version :: (k' ++ body), 3, Code.new⟩ =
        .done (.ok hd.version ⟨k' ++ body, 4, Code.new⟩) := by
      have h : Par.decodeU8 ⟨UInt8.ofNat hd.version :: (k' ++ body), 3, Code.new⟩ =
          .done (.ok (UInt8.ofNat hd.version).toNat ⟨k' ++ body, 4, Code.new⟩) :=
        Untouched.decodeU8.eq_of_seq Sim.decodeU8 (Sem.decodeU8_eq _)
      unfold P.unwrapRecord
      rw [h, hv]
      rfl
    unfold Par.readVersion
    rw [P.bind_done h, if_neg (by omega)]
    rfl
  rw [P.bind_done h2]
  clear h2
  have hl : (0x48 :: 0x4C :: 0x42 :: UInt8.ofNat hd.version :: k' : List UInt8).length = 4 + k'.length := by simp; omega
  rw [hl]
  have h3 : Par.readCounts hd.version ⟨k' ++ body, 4, Code.new⟩ = .done (.ok hd.code ⟨body, 4 + k'.length, Code.new⟩) := by
    unfold Header.words at hw
    simp only [List.append_assoc, List.cons_append, List.nil_append] at hw
    obtain ⟨k1, _, rfl, h1, hw⟩ := words_idx1 hw
    obtain ⟨k2, _, rfl, h2, hw⟩ := words_idx1 hw
    obtain ⟨k3, _, rfl, h3, hw⟩ := words_idx1 hw
    obtain ⟨k4, _, rfl, h4, hw⟩ := words_idx1 hw
    obtain ⟨k5, _, rfl, h5, hw⟩ := words_opt hw (fun h => v3 (by omega)) Code.new
    obtain ⟨k6, _, rfl, h6, hw⟩ := words_idx1 hw
    obtain ⟨k7, _, rfl, h7, hw⟩ := words_idx1 hw
    obtain ⟨k8, _, rfl, h8, hw⟩ := words_idx1 hw
    obtain ⟨k9, _, rfl, h9, hw⟩ := words_idx1 hw
    obtain ⟨k10, _, rfl, h10, hw⟩ := words_opt hw (fun h => v4 (by omega)) Code.new
    obtain ⟨k11, k12, rfl, h11, hw⟩ := words_idx1 hw
    cases hw
    simp only [List.append_assoc, List.nil_append]
    unfold Par.readCounts
    rw [P.bind_done (par_nat h1 _ _ _), P.bind_done (par_nat h2 _ _ _), P.bind_done (par_nat h3 _ _ _), P.bind_done (par_nat h4 _ _ _),
      P.bind_done (par_natIf h5 _ _), P.bind_done (par_nat h6 _ _ _), P.bind_done (par_nat h7 _ _ _), P.bind_done (par_nat h8 _ _ _),
      P.bind_done (par_nat h9 _ _ _), P.bind_done (par_natIf h10 _ _), P.bind_done (par_nat h11 _ _ _)]
    have e : hd.flags &&& 1 = hd.flags % 2 := Nat.and_one_is_mod _
    rw [e]
    simp only [List.length_append, List.length_nil, Nat.add_assoc, Nat.add_zero]
    rfl
  show Tree.andThen (Par.checked (Par.readCounts hd.version) _) _ = _
  have h4 : Par.checked (Par.readCounts hd.version) ⟨k' ++ body, 4, Code.new⟩ =
      (P.checkError >>= fun _ => pure hd.code) ⟨body, 4 + k'.length, Code.new⟩ := by
    unfold Par.checked
    exact P.bind_done h3
  rw [h4]
  show Tree.get _ = Tree.get _
  congr 1
  funext v
  cases v <;> rfl

/-! ## Schedules -/

theorem Tree.Cost.exists {α : Type} {t : Tree α} {Q : Nat → Res α → Prop} (h : t.Cost Q) : ∃ n r, Q n r := by
  induction t generalizing Q with
  | done r => exact ⟨0, r, h⟩
  | get k ih =>
    obtain ⟨n, r, h1⟩ := ih none (h none)
    exact ⟨_, r, h1⟩
  | set v t ih =>
    obtain ⟨n, r, h1⟩ := ih h
    exact ⟨_, r, h1⟩

theorem Thread.step_answers (p : Profile) (e : Option DecodeError) (t : Thread) : ∃ l, (t.step p e).2.answers = t.answers ++ l := by
  unfold Thread.step
  split
  · split <;> exact ⟨[], by simp⟩
  · exact ⟨_, rfl⟩
  · exact ⟨[], by simp⟩
  · exact ⟨[], by simp⟩

/-- An answer given stays given. -/
theorem Process.run_answers (p : Profile) (i : Nat) (sched : List Nat) (s : Process) (t : Thread) (h : s.threads[i]? = some t) (n : Nat)
    (x : List UInt8 × Answer) (hx : t.answers[n]? = some x) :
    ∃ t', (s.run p sched).threads[i]? = some t' ∧ t'.answers[n]? = some x := by
  induction sched generalizing s t with
  | nil => exact ⟨t, h, hx⟩
  | cons j r ih =>
    show ∃ t', ((Process.step p s j).run p r).threads[i]? = _ ∧ _
    unfold Process.step
    cases hj : s.threads[j]? with
    | none => exact ih s t h hx
    | some u =>
      have hlt : j < s.threads.length := by
        rw [List.getElem?_eq_some_iff] at hj
        exact hj.1
      by_cases e : j = i
      · subst e
        rw [h] at hj
        cases hj
        obtain ⟨l, hl⟩ := Thread.step_answers p s.errors t
        refine ih _ (t.step p s.errors).2 (by simp [hlt]) ?_
        rw [hl, List.getElem?_append_left]
        · exact hx
        · rw [List.getElem?_eq_some_iff] at hx
          exact hx.1
      · exact ih _ t (by simp only; rw [List.getElem?_set_ne e]; exact h) hx

/-- A call with at most `N` accesses left returns when its thread has been scheduled `N + 1` times. -/
theorem Process.returns_within (p : Profile) (i : Nat) (sched : List Nat) (s : Process) (t : Thread) (h : s.threads[i]? = some t)
    (file : List UInt8) (u : Tree Code) (hc : t.cur = some (file, u)) (N : Nat) (hu : u.Cost fun n _ => n ≤ N) (hs : N + 1 ≤ sched.count i) :
    ∃ t' a, (s.run p sched).threads[i]? = some t' ∧ t'.answers[t.answers.length]? = some (file, a) := by
  induction sched generalizing s t u N with
  | nil => simp at hs
  | cons j r ih =>
    show ∃ t' a, ((Process.step p s j).run p r).threads[i]? = _ ∧ _
    have hlt : i < s.threads.length := by
      rw [List.getElem?_eq_some_iff] at h
      exact h.1
    by_cases e : j = i
    · subst e
      rw [List.count_cons_self] at hs
      unfold Process.step
      rw [h]
      dsimp only
      cases u with
      | done x =>
        have h1 : t.step p s.errors = (s.errors, { t with cur := none, answers := t.answers ++ [(file, x.answer)] }) := by
          unfold Thread.step; rw [hc]
        rw [h1]
        obtain ⟨t', h2, h3⟩ := Process.run_answers p j r
          { errors := s.errors, threads := s.threads.set j { t with cur := none, answers := t.answers ++ [(file, x.answer)] } }
          { t with cur := none, answers := t.answers ++ [(file, x.answer)] } (by simp [hlt]) t.answers.length (file, x.answer) (by simp)
        exact ⟨t', x.answer, h2, h3⟩
      | get k =>
        have h1 : t.step p s.errors = (s.errors, { t with cur := some (file, k s.errors) }) := by
          unfold Thread.step; rw [hc]
        rw [h1]
        have h2 : (k s.errors).Cost fun n _ => n + 1 ≤ N := hu s.errors
        obtain ⟨m, _, h3⟩ := h2.exists
        exact ih { errors := s.errors, threads := s.threads.set j { t with cur := some (file, k s.errors) } }
          { t with cur := some (file, k s.errors) } (by simp [hlt]) (k s.errors) rfl (N - 1) (h2.imp fun n _ h => by omega) (by omega)
      | set v u =>
        have h1 : t.step p s.errors = (v, { t with cur := some (file, u) }) := by
          unfold Thread.step; rw [hc]
        rw [h1]
        have h2 : u.Cost fun n _ => n + 1 ≤ N := hu
        obtain ⟨m, _, h3⟩ := h2.exists
        exact ih { errors := v, threads := s.threads.set j { t with cur := some (file, u) } }
          { t with cur := some (file, u) } (by simp [hlt]) u rfl (N - 1) (h2.imp fun n _ h => by omega) (by omega)
    · rw [List.count_cons_of_ne (by simpa using e)] at hs
      refine ih _ t ?_ u hc N hu hs
      unfold Process.step
      split
      · exact h
      · dsimp only
        rw [List.getElem?_set_ne e]
        exact h

/-- The same for a call that has not begun. -/
theorem Process.call_within (p : Profile) (i : Nat) (sched : List Nat) (s : Process) (t : Thread) (h : s.threads[i]? = some t)
    (file : List UInt8) (more : List (List UInt8)) (hc : t.cur = none) (ht : t.todo = file :: more) (N : Nat)
    (hu : (Par.read p file).Cost fun n _ => n ≤ N) (hs : N + 2 ≤ sched.count i) :
    ∃ t' a, (s.run p sched).threads[i]? = some t' ∧ t'.answers[t.answers.length]? = some (file, a) := by
  induction sched generalizing s with
  | nil => simp at hs
  | cons j r ih =>
    show ∃ t' a, ((Process.step p s j).run p r).threads[i]? = _ ∧ _
    have hlt : i < s.threads.length := by
      rw [List.getElem?_eq_some_iff] at h
      exact h.1
    by_cases e : j = i
    · subst e
      rw [List.count_cons_self] at hs
      unfold Process.step
      rw [h]
      dsimp only
      have h1 : t.step p s.errors = (s.errors, { t with todo := more, cur := some (file, Par.read p file) }) := by
        unfold Thread.step; rw [hc, ht]
      rw [h1]
      exact Process.returns_within p j r
        { errors := s.errors, threads := s.threads.set j { t with todo := more, cur := some (file, Par.read p file) } }
        { t with todo := more, cur := some (file, Par.read p file) } (by simp [hlt]) file _ rfl N hu (by omega)
    · rw [List.count_cons_of_ne (by simpa using e)] at hs
      refine ih _ ?_ hs
      unfold Process.step
      split
      · exact h
      · dsimp only
        rw [List.getElem?_set_ne e]
        exact h

/-! ## The bounds -/

theorem IdxBytes.length_pos {k : List UInt8} {i : Int} (h : IdxBytes k i) : 1 ≤ k.length := by cases h <;> simp

theorem IdxSeq.length_le {l : List Nat} {k : List UInt8} (h : IdxSeq l k) : l.length ≤ k.length := by
  induction h with
  | nil => simp
  | cons n ns k k' h1 _ ih => have := IdxBytes.length_pos h1; simp; omega

theorem header_cost {p : Profile} {hd : Header} {kh : List UInt8} (hh : HeaderBytes hd kh) (rest : List UInt8) :
    (Par.read p (kh ++ rest)).Cost fun n _ => n ≤ 2 * (kh ++ rest).length + 2 * (hd.nints + hd.nfloats) := by
  rw [par_header hh]
  have hl : 13 ≤ kh.length := by
    obtain ⟨_, _, _, _, k', rfl, hw⟩ := hh
    have := IdxSeq.length_le hw
    have h9 : 9 ≤ hd.words.length := by
      unfold Header.words
      simp
      omega
    simp; omega
  intro v
  cases v with
  | some e => simp [Tree.Cost]; omega
  | none =>
    have h1 := Lin.rest (p := p) (c := hd.code) ⟨rest, kh.length, Code.new⟩
    have e1 : hd.code.nints = hd.nints := rfl
    have e2 : hd.code.nfloats = hd.nfloats := rfl
    refine h1.imp fun n r hr => ?_
    rw [e1, e2] at hr
    rw [List.length_append]
    cases r <;> simp only [Paid] at hr <;> omega

/-! ## Files without a header: the counts are at most 2^31 - 1 -/

/-- On every path, an `Ok` of `x` carries a value with `V`. -/
def Val {α : Type} (V : α → Prop) (x : P α) : Prop := ∀ d, (x d).Cost fun _ r => ∀ a d', r = .ok a d' → V a

namespace Val

theorem pure {α : Type} {V : α → Prop} {a : α} (h : V a) : Val V (Pure.pure a : P α) := by
  rintro d _ _ ⟨⟩
  exact h
theorem setError {k} : Val (fun _ => True) (P.setError k) := by
  rintro d _ _ ⟨⟩
  trivial
theorem bind {α β : Type} {V : α → Prop} {W : β → Prop} {x : P α} {f : α → P β} (hx : Val V x) (hf : ∀ a, V a → Val W (f a)) :
    Val W (x >>= f) := by
  intro d
  refine (hx d).andThen fun n r hr => ?_
  cases r with
  | ok a d' => exact hf a (hr a d' rfl) d'
  | err => rintro _ _ ⟨⟩
  | panic => rintro _ _ ⟨⟩
theorem unwrap {α : Type} {V : α → Prop} {x : P α} (hx : Val V x) : Val V (P.unwrap x) := by
  intro d
  refine (hx d).andThen fun n r hr => ?_
  cases r with
  | ok a d' => rintro _ _ ⟨⟩; exact hr a d' rfl
  | err => rintro _ _ ⟨⟩
  | panic => rintro _ _ ⟨⟩
theorem ite {α : Type} {V : α → Prop} {b : Prop} [Decidable b] {x y : P α} (hx : b → Val V x) (hy : ¬ b → Val V y) : Val V (if b then x else y) := by
  split
  · exact hx ‹_›
  · exact hy ‹_›
theorem readBytes {n} : Val (fun l => l.length = n) (Par.readBytes n) := by
  intro d
  unfold Par.readBytes
  split
  · rintro _ _ ⟨⟩
  · rintro _ _ ⟨⟩
    simp
    omega
theorem decodeU8 : Val (fun b => b < 256) Par.decodeU8 :=
  bind readBytes fun l h => pure (by have := leNat_lt l; rw [h] at this; simpa using this)
theorem readIndex : Val (fun i => i < 2 ^ 31) Par.readIndex := by
  refine bind decodeU8 fun b hb => ite (fun _ => pure ?_) (fun _ => ite (fun _ => bind (unwrap decodeU8) fun x hx => pure ?_)
    (fun _ => bind decodeU8 fun x hx => bind decodeU8 fun y hy => bind decodeU8 fun z hz => pure ?_))
  · have := Nat.and_le_left (n := b) (m := 0x7F)
    simp only [Int.reducePow]; omega
  · have h1 : b &&& 31 ≤ 31 := Nat.and_le_right
    have h2 : x ||| (b &&& 31) <<< 8 < 2 ^ 13 := Nat.or_lt_two_pow (by omega) (by rw [Nat.shiftLeft_eq]; omega)
    simp only [Int.reducePow, Nat.reducePow] at h2 ⊢
    split <;> omega
  · unfold toSigned
    simp only [Nat.reduceSub, Nat.reducePow, Int.reducePow]
    split <;> omega
theorem index : Val (fun i => i < 2 ^ 31) Par.index := unwrap readIndex
theorem uindex : Val (fun n => n < 2 ^ 31) Par.uindex :=
  bind index fun i hi => ite (fun _ => bind setError fun _ _ => pure (by decide)) (fun _ => pure (by
    simp only [Int.reducePow, Nat.reducePow] at hi ⊢; omega))
theorem uindexIf {b} : Val (fun _ => True) (Par.uindexIf b) := by
  intro d
  unfold Par.uindexIf
  split
  · exact (uindex d).imp fun _ _ _ _ _ _ => trivial
  · rintro _ _ ⟨⟩; trivial
theorem any {α : Type} {x : P α} : Val (fun _ => True) x := by
  intro d
  generalize x d = t
  induction t with
  | done r => exact fun _ _ _ => trivial
  | get k ih => exact fun v => ih v
  | set v t ih => exact ih
theorem readCounts {v} : Val (fun c : Code => c.nints < 2 ^ 31 ∧ c.nfloats < 2 ^ 31) (Par.readCounts v) :=
  bind any fun _ _ => bind uindex fun _ h1 => bind uindex fun _ h2 => bind any fun _ _ => bind any fun _ _ => bind any fun _ _ =>
    bind any fun _ _ => bind any fun _ _ => bind any fun _ _ => bind any fun _ _ => bind any fun _ _ => pure ⟨h1, h2⟩
theorem checked {α : Type} {V : α → Prop} {x : P α} (h : Val V x) : Val V (Par.checked x) := bind h fun _ ha => bind any fun _ _ => pure ha

end Val

theorem Lin.bindVal {α β : Type} {V : α → Prop} {x : P α} {f : α → P β} {g1 b1 g2 b2 : Nat} (g b : Nat) (hv : Val V x) (hx : Lin g1 b1 x)
    (hf : ∀ a, V a → Lin g2 b2 (f a))
    (h1 : b1 ≤ b := by omega) (h2 : b1 + b2 ≤ g1 + b := by omega) (h3 : g + b1 + b2 ≤ g1 + g2 + b := by omega) : Lin g b (P.bind x f) := by
  intro d
  refine ((hx d).and (hv d)).andThen fun n r hr => ?_
  obtain ⟨hr, hv⟩ := hr
  cases r with
  | ok a d' =>
    refine (hf a (hv a d' rfl) d').imp fun m r' hr' => ?_
    simp only [Paid] at hr
    cases r' <;> simp only [Paid] at hr' ⊢ <;> omega
  | err e d' => simp only [Paid, Tree.Cost] at hr ⊢; omega
  | panic => simp only [Paid, Tree.Cost] at hr ⊢; omega

theorem any_cost (p : Profile) (file : List UInt8) : (Par.read p file).Cost fun n _ => n ≤ 2 * file.length + 2 ^ 33 := by
  have h : Lin 0 (2 ^ 33) (Par.readM p) := by
    refine Lin.bind (g2 := 0) (b2 := 2 ^ 33 + 6) 0 (2 ^ 33) Lin.readMagic fun _ => Lin.bind (g2 := 0) (b2 := 2 ^ 33 + 4) 0 (2 ^ 33 + 6) Lin.readVersion (fun _ => ?_)
    refine Lin.bindVal (g2 := 0) (b2 := 2 ^ 33 + 6) 0 (2 ^ 33 + 4) (Val.checked Val.readCounts)
      (g1 := 8) (b1 := 0) (Lin.bind 8 0 Lin.readCounts fun _ => Lin.bind 0 1 Lin.checkError fun _ => Lin.pure) fun c hc => ?_
    exact Lin.rest.mono _ _ (by omega) (by omega)
  refine (h ⟨file, 0, Code.new⟩).imp fun n r hr => ?_
  cases r <;> simp only [Paid] at hr <;> omega

/-- **C97** However the threads are scheduled and whatever they read, a call of `Code::read` on a file with header `hd` returns or panics
after a number of steps of its own thread that is linear in the length of the file and the numbers of ints and floats that the header
announces: thread `i`, about to read the file, has received the answer when it has been scheduled
`2 * file.length + 2 * (nints + nfloats) + 2` times (one step to begin, one per access to the error record, one to return). -/
theorem c97_wait_free (p : Profile) (hd : Header) (kh rest : List UInt8) (hh : HeaderBytes hd kh) (s : Process) (i : Nat) (t : Thread)
    (ht : s.threads[i]? = some t) (hc : t.cur = none) (more : List (List UInt8)) (hf : t.todo = (kh ++ rest) :: more)
    (sched : List Nat) (hs : 2 * (kh ++ rest).length + 2 * (hd.nints + hd.nfloats) + 2 ≤ sched.count i) :
    ∃ t' a, (s.run p sched).threads[i]? = some t' ∧ t'.answers[t.answers.length]? = some (kh ++ rest, a) :=
  Process.call_within p i sched s t ht _ more hc hf _ (header_cost hh rest) hs

/-- **C97** The same for any sequence of bytes whatsoever, with the largest possible numbers of ints and floats. -/
theorem c97_wait_free_any (p : Profile) (file : List UInt8) (s : Process) (i : Nat) (t : Thread)
    (ht : s.threads[i]? = some t) (hc : t.cur = none) (more : List (List UInt8)) (hf : t.todo = file :: more)
    (sched : List Nat) (hs : 2 * file.length + 2 ^ 33 + 2 ≤ sched.count i) :
    ∃ t' a, (s.run p sched).threads[i]? = some t' ∧ t'.answers[t.answers.length]? = some (file, a) :=
  Process.call_within p i sched s t ht _ more hc hf _ (any_cost p file) hs

/-! ## Accepted files -/

/-- One section of an accepted file. -/
theorem Cnt.phase {α β : Type} {x : P α} {y : M α} {g : G α} {Q : Code → Prop} {n : Nat} (hc : Cnt n x) (hs : Sim x y) (hg : SemP Q y g)
    {c : Code} {k : List UInt8} {a : α} {c' : Code} (hq : Q c) (h : g c k a c') (rest : List UInt8) (pos : Nat) (f : α → P β) :
    (trace ((x >>= f) ⟨k ++ rest, pos, c⟩) none).length = n + (trace (f a ⟨rest, pos + k.length, c'⟩) none).length ∧
    ((x >>= f) ⟨k ++ rest, pos, c⟩).run none = (f a ⟨rest, pos + k.length, c'⟩).run none := by
  have h1 := hg.complete c k a c' hq h rest pos
  rcases hs.cases ⟨k ++ rest, pos, c⟩ none with ⟨b, d', e', h2, h3⟩ | ⟨z, d', e', h2, h3⟩ | ⟨e', h2, h3⟩
  · have h4 : Out.ok b (d'.st e') = .ok a ⟨rest, pos + k.length, c', none⟩ := h3.symm.trans h1
    cases d'
    simp only [Dec.st, Out.ok.injEq, St.mk.injEq] at h4
    obtain ⟨rfl, rfl, rfl, rfl, rfl⟩ := h4
    show (trace (Tree.andThen (x _) _) none).length = _ ∧ (Tree.andThen (x _) _).run none = _
    rw [trace_andThen, Tree.run_andThen, h2, List.length_append, hc.count _ _ _ h2]
    exact ⟨rfl, rfl⟩
  · have h4 : Out.err z (d'.st e') = .ok a ⟨rest, pos + k.length, c', none⟩ := h3.symm.trans h1
    cases h4
  · have h4 : Out.panic = .ok a ⟨rest, pos + k.length, c', none⟩ := h3.symm.trans h1
    cases h4

/-- **C97** Reading an accepted file alone only reads the error record, finds it empty each time, and does so once after the header, once
per pool, once for the byte constants (from version 5 on), once for the debug files (if flagged), once for globals, natives and functions
each, and once for every function and every constant. -/
theorem c97_accepted_reads (p : Profile) (hd : Header) (kh rest : List UInt8) (hh : HeaderBytes hd kh) (c : Code) (s : St)
    (h : Code.read p none (kh ++ rest) = .ok c s) :
    trace (Par.read p (kh ++ rest)) none =
      List.replicate (7 + (if 5 ≤ hd.version then 1 else 0) + hd.flags % 2 + hd.nfunctions + hd.nconstants) (.read none) := by
  obtain ⟨k, S, rfl, rfl, hb⟩ := sections_of_read h hh
  have hr : S.k1 ++ (S.k2 ++ (S.k3 ++ (S.k4 ++ (S.k5 ++ (S.k6 ++ (S.k7 ++ (S.k8 ++ s.buf))))))) = rest := by
    have := (congrArg (· ++ s.buf) S.hk).symm.trans hb
    simp only [List.append_assoc, List.append_cancel_left_eq] at this
    exact this
  have h0 : (Par.read p (S.kh ++ rest)).Records := Rec.read p _
  rw [par_header S.header, ← hr] at h0 ⊢
  obtain ⟨t1, r1⟩ := Cnt.phase Cnt.readPools (Sim.readPools S.h.code) (Sem.readPools S.h.code) trivial S.pools
    (S.k2 ++ (S.k3 ++ (S.k4 ++ (S.k5 ++ (S.k6 ++ (S.k7 ++ (S.k8 ++ s.buf))))))) S.kh.length
    (fun c => Par.readBytesSection c >>= fun c => Par.readDebugFiles c >>= fun c => Par.readTypes c >>= fun c =>
      Par.readGlobals c >>= fun c => Par.readNatives c >>= fun c => Par.readFunctions p c >>= fun c => Par.readConstants c >>= fun _ =>
      P.getCode)
  obtain ⟨t2, r2⟩ := Cnt.phase Cnt.readBytesSection (Sim.readBytesSection S.c1) (Sem.readBytesSection S.c1) trivial S.bytes
    (S.k3 ++ (S.k4 ++ (S.k5 ++ (S.k6 ++ (S.k7 ++ (S.k8 ++ s.buf)))))) (S.kh.length + S.k1.length)
    (fun c => Par.readDebugFiles c >>= fun c => Par.readTypes c >>= fun c =>
      Par.readGlobals c >>= fun c => Par.readNatives c >>= fun c => Par.readFunctions p c >>= fun c => Par.readConstants c >>= fun _ =>
      P.getCode)
  obtain ⟨t3, r3⟩ := Cnt.phase Cnt.readDebugFiles (Sim.readDebugFiles S.c2) (Sem.readDebugFiles S.c2) trivial S.debugFiles
    (S.k4 ++ (S.k5 ++ (S.k6 ++ (S.k7 ++ (S.k8 ++ s.buf))))) (S.kh.length + S.k1.length + S.k2.length)
    (fun c => Par.readTypes c >>= fun c =>
      Par.readGlobals c >>= fun c => Par.readNatives c >>= fun c => Par.readFunctions p c >>= fun c => Par.readConstants c >>= fun _ =>
      P.getCode)
  obtain ⟨t4, r4⟩ := Cnt.phase Cnt.readTypes (Sim.readTypes S.c3) (Sem.readTypes S.c3) trivial S.types
    (S.k5 ++ (S.k6 ++ (S.k7 ++ (S.k8 ++ s.buf)))) (S.kh.length + S.k1.length + S.k2.length + S.k3.length)
    (fun c => Par.readGlobals c >>= fun c => Par.readNatives c >>= fun c => Par.readFunctions p c >>= fun c =>
      Par.readConstants c >>= fun _ => P.getCode)
  obtain ⟨t5, r5⟩ := Cnt.phase Cnt.readGlobals (Sim.readGlobals S.c4) (Sem.readGlobals S.c4) trivial S.globals
    (S.k6 ++ (S.k7 ++ (S.k8 ++ s.buf))) (S.kh.length + S.k1.length + S.k2.length + S.k3.length + S.k4.length)
    (fun c => Par.readNatives c >>= fun c => Par.readFunctions p c >>= fun c => Par.readConstants c >>= fun _ => P.getCode)
  obtain ⟨t6, r6⟩ := Cnt.phase Cnt.readNatives (Sim.readNatives S.c5) (Sem.readNatives S.c5) trivial S.natives
    (S.k7 ++ (S.k8 ++ s.buf)) (S.kh.length + S.k1.length + S.k2.length + S.k3.length + S.k4.length + S.k5.length)
    (fun c => Par.readFunctions p c >>= fun c => Par.readConstants c >>= fun _ => P.getCode)
  obtain ⟨t7, r7⟩ := Cnt.phase Cnt.readFunctions (Sim.readFunctions p S.c6) (Sem.readFunctions p S.c6 S.same6.2.1) trivial S.functions
    (S.k8 ++ s.buf) (S.kh.length + S.k1.length + S.k2.length + S.k3.length + S.k4.length + S.k5.length + S.k6.length)
    (fun c => Par.readConstants c >>= fun _ => P.getCode)
  obtain ⟨t8, r8⟩ := Cnt.phase Cnt.readConstants (Sim.readConstants S.c7) (Sem.readConstants S.c7) trivial S.constants
    s.buf (S.kh.length + S.k1.length + S.k2.length + S.k3.length + S.k4.length + S.k5.length + S.k6.length + S.k7.length)
    (fun _ => P.getCode)
  have hrun : ((Tree.get fun v => match v with
      | some e => .done (.err e ⟨S.k1 ++ (S.k2 ++ (S.k3 ++ (S.k4 ++ (S.k5 ++ (S.k6 ++ (S.k7 ++ (S.k8 ++ s.buf))))))), S.kh.length, Code.new⟩)
      | none => afterHeader p S.h.code ⟨S.k1 ++ (S.k2 ++ (S.k3 ++ (S.k4 ++ (S.k5 ++ (S.k6 ++ (S.k7 ++ (S.k8 ++ s.buf))))))), S.kh.length, Code.new⟩).run
      none).2 = none := by
    show ((afterHeader p S.h.code _).run none).2 = none
    unfold afterHeader
    rw [r1, r2, r3, r4, r5, r6, r7, r8]
    rfl
  rw [h0.trace_none hrun]
  congr 1
  show (trace (afterHeader p S.h.code _) none).length + 1 = _
  unfold afterHeader
  rw [t1, t2, t3, t4, t5, t6, t7, t8]
  have e0 : (trace (P.getCode ⟨s.buf, S.kh.length + S.k1.length + S.k2.length + S.k3.length + S.k4.length + S.k5.length + S.k6.length +
      S.k7.length + S.k8.length, c⟩) none).length = 0 := rfl
  rw [e0, S.same1.1.version, S.same2.1.hasdebug, S.same6.1.nfunctions, S.same7.1.nconstants]
  have e1 : (if S.h.flags % 2 ≠ 0 then 1 else 0) = S.h.flags % 2 := by split <;> omega
  rw [e1]
  omega

/-! ## Files that end in a pool -/

/-- `rd` reads `w` bytes or fails at once. -/
structure FixedP {α : Type} (w : Nat) (rd : P α) : Prop where
  ok : ∀ d : Dec, w ≤ d.buf.length → ∃ a, rd d = .done (.ok a { d with buf := d.buf.drop w, pos := d.pos + w })
  short : ∀ d : Dec, d.buf.length < w → rd d = .done (.err ⟨.noMoreData, d.pos⟩ d)

theorem FixedP.i32 : FixedP 4 Par.decodeI32 where
  ok d h := ⟨_, by
    have h1 : Par.readBytes 4 d = .done (.ok (d.buf.take 4) { d with buf := d.buf.drop 4, pos := d.pos + 4 }) := by
      unfold Par.readBytes; rw [if_neg (by omega)]
    exact P.bind_done h1⟩
  short d h := by
    have h1 : Par.readBytes 4 d = .done (.err ⟨.noMoreData, d.pos⟩ d) := by
      unfold Par.readBytes; rw [if_pos (by omega)]
    show Tree.andThen (Par.readBytes 4 d) _ = _
    rw [h1]
    rfl

theorem FixedP.f64 : FixedP 8 Par.decodeF64 where
  ok d h := ⟨_, by
    have h1 : Par.readBytes 8 d = .done (.ok (d.buf.take 8) { d with buf := d.buf.drop 8, pos := d.pos + 8 }) := by
      unfold Par.readBytes; rw [if_neg (by omega)]
    exact P.bind_done h1⟩
  short d h := by
    have h1 : Par.readBytes 8 d = .done (.err ⟨.noMoreData, d.pos⟩ d) := by
      unfold Par.readBytes; rw [if_pos (by omega)]
    show Tree.andThen (Par.readBytes 8 d) _ = _
    rw [h1]
    rfl

/-- One round of the loop of a pool. -/
def poolBody {α : Type} (rd : P α) (i : Nat) (v : List α) : P (List α) := do
  let x ← P.okOrRecord rd
  Par.insertIfSome v i x

theorem poolBody_ok {α : Type} {w : Nat} {rd : P α} (h : FixedP w rd) (v : List α) (d : Dec) (hl : w ≤ d.buf.length) :
    ∃ v', v'.length = v.length + 1 ∧ poolBody rd v.length v d = .done (.ok v' { d with buf := d.buf.drop w, pos := d.pos + w }) := by
  obtain ⟨a, ha⟩ := h.ok d hl
  have h1 : P.okOrRecord rd d = .done (.ok (some a) { d with buf := d.buf.drop w, pos := d.pos + w }) := by
    unfold P.okOrRecord; rw [ha]; rfl
  refine ⟨v.insertIdx v.length a, by simp, ?_⟩
  unfold poolBody
  rw [P.bind_done h1]
  show P.insertAt v v.length a _ = _
  unfold P.insertAt
  rw [if_pos (Nat.le_refl _)]
  rfl

theorem poolBody_short {α : Type} {w : Nat} {rd : P α} (h : FixedP w rd) (i : Nat) (v : List α) (d : Dec) (hl : d.buf.length < w) :
    poolBody rd i v d = P.recordError ⟨.noMoreData, d.pos⟩ (.ok v d) := by
  have ha := h.short d hl
  have h1 : P.okOrRecord rd d = P.recordError ⟨.noMoreData, d.pos⟩ (.ok none d) := by
    unfold P.okOrRecord; rw [ha]; rfl
  unfold poolBody
  show Tree.andThen (P.okOrRecord rd d) _ = _
  rw [h1]
  unfold P.recordError
  show Tree.get _ = Tree.get _
  congr 1
  funext x
  cases x <;> rfl

/-- The rest of a pool after a failure. -/
theorem pool_after_end {α : Type} {w : Nat} {rd : P α} (h : FixedP w rd) (v : List α) (d : Dec) (hl : d.buf.length < w) (e : DecodeError) :
    ∀ n a, (P.forRange (poolBody rd) a n v d).run (some e) = (.ok v d, some e) ∧
      trace (P.forRange (poolBody rd) a n v d) (some e) = List.replicate n (.read (some e))
  | 0, _ => ⟨rfl, rfl⟩
  | n + 1, a => by
    obtain ⟨h1, h2⟩ := pool_after_end h v d hl e n (a + 1)
    show (Tree.andThen (poolBody rd a v d) _).run (some e) = _ ∧ trace (Tree.andThen (poolBody rd a v d) _) (some e) = _
    rw [poolBody_short h a v d hl, trace_andThen, Tree.run_andThen]
    exact ⟨h1, by rw [List.replicate_succ]; exact congrArg (_ :: ·) h2⟩

/-- A pool that ends early. -/
theorem pool_ends {α : Type} {w : Nat} {rd : P α} (h : FixedP w rd) (hw : 0 < w) : ∀ (n : Nat) (v : List α) (d : Dec), d.buf.length < w * n →
    (∃ v' d', (P.forRange (poolBody rd) v.length n v d).run none =
      (.ok v' d', some ⟨.noMoreData, d.pos + w * (d.buf.length / w)⟩)) ∧
    trace (P.forRange (poolBody rd) v.length n v d) none =
      .read none :: .write (some ⟨.noMoreData, d.pos + w * (d.buf.length / w)⟩) ::
        List.replicate (n - d.buf.length / w - 1) (.read (some ⟨.noMoreData, d.pos + w * (d.buf.length / w)⟩))
  | 0, v, d, hl => by simp at hl
  | n + 1, v, d, hl => by
    show (∃ v' d', (Tree.andThen (poolBody rd v.length v d) _).run none = _) ∧ trace (Tree.andThen (poolBody rd v.length v d) _) none = _
    by_cases hc : w ≤ d.buf.length
    · obtain ⟨v', hv, hb⟩ := poolBody_ok h v d hc
      rw [hb]
      have h3 := pool_ends h hw n v' { d with buf := d.buf.drop w, pos := d.pos + w } (by
        rw [Nat.mul_succ] at hl
        simp only [List.length_drop]; omega)
      have e1 : d.buf.length / w = (d.buf.length - w) / w + 1 := by
        rw [Nat.div_eq_sub_div hw hc]
      have e2 : d.pos + w * (d.buf.length / w) = d.pos + w + w * ((d.buf.length - w) / w) := by
        rw [e1, Nat.mul_succ]; omega
      have e3 : n + 1 - d.buf.length / w - 1 = n - (d.buf.length - w) / w - 1 := by omega
      rw [e2, e3]
      simp only [List.length_drop, hv] at h3
      exact h3
    · have hc : d.buf.length < w := by omega
      have e1 : d.buf.length / w = 0 := Nat.div_eq_of_lt hc
      rw [e1, Nat.mul_zero, Nat.add_zero, poolBody_short h _ v d hc, trace_andThen, Tree.run_andThen]
      obtain ⟨h1, h2⟩ := pool_after_end h v d hc ⟨.noMoreData, d.pos⟩ n (v.length + 1)
      exact ⟨⟨v, d, h1⟩, congrArg (_ :: _ :: ·) h2⟩

/-- **C97** A file that ends inside the int pool: the decoder does not stop at the first missing word.  Read alone, it records one
`NoMoreData` and then goes on to read the error record once for every further word that the header announces, however short the file
is. -/
theorem c97_cut_ints (p : Profile) (hd : Header) (kh body : List UInt8) (hh : HeaderBytes hd kh) (hl : body.length < 4 * hd.nints) :
    let e : DecodeError := ⟨.noMoreData, kh.length + 4 * (body.length / 4)⟩
    trace (Par.read p (kh ++ body)) none =
      .read none :: .read none :: .write (some e) :: List.replicate (hd.nints - body.length / 4) (.read (some e)) := by
  intro e
  rw [par_header hh]
  obtain ⟨⟨v', d', h1⟩, h2⟩ := pool_ends FixedP.i32 (by decide) hd.nints [] ⟨body, kh.length, Code.new⟩ hl
  show _ :: trace (afterHeader p hd.code _) none = _
  congr 1
  unfold afterHeader Par.readPools Par.checked
  show trace (Tree.andThen (Tree.andThen (Tree.andThen (P.forRange (poolBody Par.decodeI32) 0 hd.nints [] ⟨body, kh.length, Code.new⟩) _) _) _) none = _
  simp only [trace_andThen, Tree.run_andThen]
  rw [show (0 : Nat) = ([] : List Int).length from rfl, h1, h2]
  have hn : hd.nints - body.length / 4 = hd.nints - body.length / 4 - 1 + 1 := by omega
  rw [hn, List.replicate_succ']
  simp only [List.cons_append, List.append_assoc]
  rfl

theorem pool_whole {α : Type} {w : Nat} {rd : P α} (h : FixedP w rd) : ∀ (n : Nat) (v : List α) (d : Dec), w * n ≤ d.buf.length →
    ∃ v', P.forRange (poolBody rd) v.length n v d = .done (.ok v' { d with buf := d.buf.drop (w * n), pos := d.pos + w * n })
  | 0, v, d, _ => ⟨v, by simp [P.forRange, P.pure]⟩
  | n + 1, v, d, hl => by
    rw [Nat.mul_succ] at hl
    obtain ⟨v', hv, hb⟩ := poolBody_ok h v d (by omega)
    obtain ⟨v2, h2⟩ := pool_whole h n v' { d with buf := d.buf.drop w, pos := d.pos + w } (by simp only [List.length_drop]; omega)
    refine ⟨v2, ?_⟩
    show Tree.andThen (poolBody rd v.length v d) _ = _
    rw [hb]
    show P.forRange (poolBody rd) (v.length + 1) n v' _ = _
    rw [← hv, h2]
    simp only [List.drop_drop]
    rw [Nat.mul_succ, Nat.add_comm w (w * n), Nat.add_assoc, Nat.add_comm w (w * n)]

/-- **C97** The same for a file that ends inside the float pool. -/
theorem c97_cut_floats (p : Profile) (hd : Header) (kh body : List UInt8) (hh : HeaderBytes hd kh) (h0 : 4 * hd.nints ≤ body.length)
    (hl : body.length < 4 * hd.nints + 8 * hd.nfloats) :
    let e : DecodeError := ⟨.noMoreData, kh.length + 4 * hd.nints + 8 * ((body.length - 4 * hd.nints) / 8)⟩
    trace (Par.read p (kh ++ body)) none =
      .read none :: .read none :: .read none :: .write (some e) ::
        List.replicate (hd.nfloats - (body.length - 4 * hd.nints) / 8) (.read (some e)) := by
  intro e
  rw [par_header hh]
  obtain ⟨vi, hi⟩ := pool_whole FixedP.i32 hd.nints [] ⟨body, kh.length, Code.new⟩ h0
  obtain ⟨⟨v', d', h1⟩, h2⟩ := pool_ends FixedP.f64 (by decide) hd.nfloats []
    ⟨body.drop (4 * hd.nints), kh.length + 4 * hd.nints, Code.new⟩ (by simp only [List.length_drop]; omega)
  simp only [List.length_drop] at h1 h2
  show _ :: trace (afterHeader p hd.code _) none = _
  congr 1
  unfold afterHeader Par.readPools Par.checked
  show trace (Tree.andThen (Tree.andThen (Tree.andThen (P.forRange (poolBody Par.decodeI32) ([] : List Int).length hd.nints [] ⟨body, kh.length, Code.new⟩) _) _) _) none = _
  rw [hi]
  show Access.read none :: trace (Tree.andThen (Tree.andThen (Tree.andThen (P.forRange (poolBody Par.decodeF64) ([] : List Nat).length hd.nfloats [] _) _) _) _) none = _
  congr 1
  simp only [trace_andThen, Tree.run_andThen]
  rw [h1, h2]
  have hn : hd.nfloats - (body.length - 4 * hd.nints) / 8 = hd.nfloats - (body.length - 4 * hd.nints) / 8 - 1 + 1 := by omega
  rw [hn, List.replicate_succ']
  simp only [List.cons_append, List.append_assoc]
  rfl

theorem cut_length (p : Profile) (hd : Header) (kh : List UInt8) (hh : HeaderBytes hd kh) (hl : 0 < hd.nints) :
    (trace (Par.read p kh) none).length = hd.nints + 3 := by
  have h := c97_cut_ints p hd kh [] hh (by simp only [List.length_nil]; omega)
  simp only [List.append_nil] at h
  rw [h]
  simp

/-- The header of a file of sixteen bytes that announces 2^31 - 1 ints. -/
theorem sixteen (n : Nat) (hn : n = 2 ^ 31 - 1) : HeaderBytes ⟨2, 0, n, 0, 0, 0, 0, 0, 0, 0, 0, 0⟩
    [0x48, 0x4C, 0x42, 2, 0, 0xFF, 0xFF, 0xFF, 0x7F, 0, 0, 0, 0, 0, 0, 0] := by
  refine ⟨by simp, by simp, by simp, by simp, [0, 0xFF, 0xFF, 0xFF, 0x7F, 0, 0, 0, 0, 0, 0, 0], rfl, ?_⟩
  have z : IdxBytes [0] ((0 : Nat) : Int) := .short 0 (by decide)
  have l : IdxBytes [0xFF, 0xFF, 0xFF, 0x7F] (n : Int) := by
    have h := IdxBytes.long 0xFF 0xFF 0xFF 0x7F (by decide)
    have e : twos32 (unsignedLE [0xFF, 0xFF, 0xFF, 0x7F]) = (n : Int) := by
      have e1 : twos32 (unsignedLE [0xFF, 0xFF, 0xFF, 0x7F]) = 2147483647 := by decide +kernel
      rw [e1]
      omega
    rwa [e] at h
  exact .cons 0 _ [0] _ z <| .cons n _ [0xFF, 0xFF, 0xFF, 0x7F] _ l <| .cons 0 _ [0] _ z <|
    .cons 0 _ [0] _ z <| .cons 0 _ [0] _ z <| .cons 0 _ [0] _ z <| .cons 0 _ [0] _ z <| .cons 0 _ [0] _ z <| .cons 0 _ [0] _ z .nil

/-- **C97** The term for the announced ints is needed: reading a certain file of sixteen bytes takes more than 2^31 accesses to the error
record before it is rejected. -/
theorem c97_sixteen_bytes (p : Profile) : ∃ file, file.length = 16 ∧ (∃ e s, Code.read p none file = .err e s) ∧
    2 ^ 31 < (trace (Par.read p file) none).length := by
  obtain ⟨n, hn⟩ : ∃ n : Nat, n = 2 ^ 31 - 1 := ⟨_, rfl⟩
  refine ⟨[0x48, 0x4C, 0x42, 2, 0, 0xFF, 0xFF, 0xFF, 0x7F, 0, 0, 0, 0, 0, 0, 0], rfl, ?_, ?_⟩
  · obtain ⟨s, h⟩ := c28_short_ints p _ _ [] (sixteen n hn) (by simp only [List.length_nil]; omega)
    rw [List.append_nil] at h
    exact ⟨_, s, h⟩
  · rw [cut_length p _ _ (sixteen n hn) (by simp only; omega)]
    simp only
    omega

/-- The part after the header of a file with types, globals, a function and a constant. -/
def exWorkBody : List UInt8 := [7, 0, 0, 0, 4, 0, 0, 0, 0x61, 0, 0x62, 0, 1, 1,
  3, 10, 1, 0, 0, 8, 11, 0, 0xA0, 1, 1, 2, 0, 0, 0, 0, 1, 2, 18, 0, 2, 1, 1, 1, 0, 17, 0, 14, 0,
  3, 4, 5, 0, 4,
  1, 0, 1, 5, 0,
  66, 1, 0, 0, 77, 0, 0, 0, 66, 37, 4, 0,
  0, 2, 0, 1]

/-- The file with this body. -/
def exWork : List UInt8 := [0x48, 0x4C, 0x42, 4, 0, 1, 0, 2, 7, 5, 0, 1, 1, 0] ++ exWorkBody

theorem exWork_header : HeaderBytes ⟨4, 0, 1, 0, 2, 0, 7, 5, 0, 1, 1, 0⟩ [0x48, 0x4C, 0x42, 4, 0, 1, 0, 2, 7, 5, 0, 1, 1, 0] := by
  refine ⟨by decide, by decide, by decide, by decide, [0, 1, 0, 2, 7, 5, 0, 1, 1, 0], rfl, ?_⟩
  have s : ∀ b : UInt8, b.toNat < 128 → IdxBytes [b] (b.toNat : Int) := fun b h => .short b h
  exact .cons 0 _ [0] _ (s 0 (by decide)) <| .cons 1 _ [1] _ (s 1 (by decide)) <| .cons 0 _ [0] _ (s 0 (by decide)) <|
    .cons 2 _ [2] _ (s 2 (by decide)) <| .cons 7 _ [7] _ (s 7 (by decide)) <| .cons 5 _ [5] _ (s 5 (by decide)) <|
    .cons 0 _ [0] _ (s 0 (by decide)) <| .cons 1 _ [1] _ (s 1 (by decide)) <| .cons 1 _ [1] _ (s 1 (by decide)) <|
    .cons 0 _ [0] _ (s 0 (by decide)) .nil

/-- C97: the hypotheses of `c97_accepted_reads` are met, and the trace is as stated (version 4, no debug info: 7 + 1 + 1 reads). -/
example : (∃ c s, Code.read .release none exWork = .ok c s) ∧ trace (Par.read .release exWork) none = List.replicate 9 (.read none) := by
  constructor
  · obtain ⟨c, s, h, _⟩ := checkOk_iff (show checkOk (Code.read .release none exWork) (fun _ => true) = true by decide +kernel)
    exact ⟨c, s, h⟩
  · decide +kernel

/-- C97: the hypotheses of `c97_wait_free` are met: two threads read that file twice, in turn, 400 steps each, more than the
`2 * 88 + 2 * 1 + 2` that the theorem asks for. -/
example : ∃ t' a, ((Process.start none [[exWork, exWork], [exWork, exWork]]).run .release ((List.range 800).map (· % 2))).threads[1]? = some t' ∧
    t'.answers[0]? = some (exWork, a) :=
  c97_wait_free .release _ _ exWorkBody exWork_header _ 1 ⟨[exWork, exWork], none, []⟩ rfl rfl [exWork] rfl ((List.range 800).map (· % 2))
    (by decide +kernel)

/-- C97: a header that announces five ints, followed by one and a half of them: one failure is recorded, at the second word, and the
record is read four more times. -/
example : trace (Par.read .dev [0x48, 0x4C, 0x42, 4, 0, 5, 0, 0, 0, 0, 0, 0, 0, 0, 1, 0, 0, 0, 2, 0]) none =
    [.read none, .read none, .write (some ⟨.noMoreData, 18⟩), .read (some ⟨.noMoreData, 18⟩), .read (some ⟨.noMoreData, 18⟩),
      .read (some ⟨.noMoreData, 18⟩), .read (some ⟨.noMoreData, 18⟩)] := by decide +kernel

end Verif.Brass
