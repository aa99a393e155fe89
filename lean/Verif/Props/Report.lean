import Verif.Brass.ReportFile
import Verif.Props.Fault

/-!
# Which files are rejected, and with which error (C87)
-/

namespace Verif.Brass

open Verif Verif.Brass.Spec

/-! ## The theorem -/

/-- **C87** `Code::read`, in a process without a recorded error, returns `Err(e)` exactly if the file is `Rejected` with `e`. -/
theorem c87_rejected_iff (p : Profile) (file : List UInt8) (e : DecodeError) :
    (∃ s, Code.read p none file = .err e s) ↔ Rejected p file e :=
  (Errs.readM p Code.new file 0 e).trans (rejected_iff p file e)

/-- **C87** At most one error is right. -/
theorem c87_one_error (p : Profile) (file : List UInt8) (e e' : DecodeError) (h : Rejected p file e) (h' : Rejected p file e') :
    e = e' := by
  obtain ⟨s, h⟩ := (c87_rejected_iff p file e).2 h
  obtain ⟨s', h'⟩ := (c87_rejected_iff p file e').2 h'
  rw [h] at h'
  cases h'
  rfl

/-- **C87** A file is not both accepted and rejected, and `Code::read` panics exactly on those that are neither. -/
theorem c87_panics_iff (p : Profile) (file : List UInt8) :
    (Code.read p none file = .panic ↔
      ¬ (∃ k rest c c', file = k ++ rest ∧ fileG p noCode k c c') ∧ ¬ ∃ e, Rejected p file e) ∧
    ¬ ((∃ k rest c c', file = k ++ rest ∧ fileG p noCode k c c') ∧ ∃ e, Rejected p file e) := by
  have h1 : (∃ k rest c c', file = k ++ rest ∧ fileG p noCode k c c') ↔ ∃ c s, Code.read p none file = .ok c s := by
    constructor
    · rintro ⟨k, rest, c, c', h, hg⟩
      exact ⟨c, _, (c38_accepts_exactly_the_grammar p none file c ⟨rest, k.length, c', none⟩).2 ⟨rfl, k, rest, h, hg, rfl⟩⟩
    · rintro ⟨c, s, h⟩
      obtain ⟨_, k, rest, h2, h3, _⟩ := (c38_accepts_exactly_the_grammar p none file c s).1 h
      exact ⟨k, rest, c, _, h2, h3⟩
  have h2 : (∃ e, Rejected p file e) ↔ ∃ e s, Code.read p none file = .err e s :=
    ⟨fun ⟨e, h⟩ => ⟨e, (c87_rejected_iff p file e).2 h⟩, fun ⟨e, h⟩ => ⟨e, (c87_rejected_iff p file e).1 h⟩⟩
  rw [h1, h2]
  cases Code.read p none file <;> simp

/-! ## When an error is recorded already -/

theorem errAfter_some (x : DecodeError) (pos : Nat) (w : Marked) :
    errAfter (some x) pos w = Spec.reported (x :: faults pos w) := by
  rw [errAfter_eq]
  unfold Spec.reported
  by_cases hx : x.kind = .invalidType
  · rw [List.filter_cons_of_neg (by simpa using hx)]
    rfl
  · rw [List.filter_cons_of_pos (by simpa using hx), List.getLast?_cons]
    cases ((faults pos w).filter (fun e => decide (e.kind ≠ .invalidType))).getLast? <;> rfl

/-- **C87** `Code::read`, in a process in which the error `x` is recorded, returns `Err(e)` exactly if the file is
`RejectedAfter x` with `e`. -/
theorem c87_rejected_after_iff (p : Profile) (x : DecodeError) (file : List UInt8) (e : DecodeError) :
    (∃ s, Code.read p (some x) file = .err e s) ↔ RejectedAfter x file e := by
  have hrun : Code.read p (some x) file = (readStart >>= fun c => checked (readCounts c.version) >>= readPools >>= readBytesSection >>=
      readDebugFiles >>= readTypesGlobals >>= readNatives >>= readFunctions p >>= (fun c => readConstants c >>= fun _ => M.getCode))
      ⟨file, 0, Code.new, some x⟩ := by
    show readM p _ = _
    rw [readM_eq]
    unfold readHeader
    simp only [M.bind_assoc]
    rfl
  rw [hrun]
  have key : ∀ (c : Code) (s : St), s.errors = some x → ((∃ s', (checked (readCounts c.version) >>= readPools >>= readBytesSection >>=
      readDebugFiles >>= readTypesGlobals >>= readNatives >>= readFunctions p >>= (fun c => readConstants c >>= fun _ => M.getCode)) s = .err e s') ↔
      ∃ w rest a c'', s.buf = text w ++ rest ∧ countsF c.version s.code true w a c'' ∧ Spec.reported (x :: faults s.pos w) = some e) := by
    intro c s hs
    simp only [M.bind_assoc]
    unfold checked
    simp only [M.bind_assoc]
    constructor
    · rintro ⟨s', h⟩
      rw [M.bind_def] at h
      split at h
      · next a s1 h1 =>
        obtain ⟨w, hb, hp, he, hg⟩ := (FSem.ofSim (.readCounts _) (.readCounts c.version)).sound _ _ _ h1
        rw [hs] at he hg
        rw [errAfter_some] at he
        refine ⟨w, s1.buf, a, s1.code, hb, hg, ?_⟩
        have hn : s1.errors.isSome = true := by
          rw [he, ← errAfter_some, errAfter_isSome]; rfl
        rw [← he]
        cases h2 : s1.errors with
        | none => rw [h2] at hn; cases hn
        | some y =>
          have h3 : M.checkError s1 = .err y s1 := by unfold M.checkError; rw [h2]
          rw [M.bind_def, h3] at h
          cases h
          rfl
      · next h1 => exact absurd h1 (NoErr.readCounts _ _ _ _)
      · cases h
    · rintro ⟨w, rest, a, c'', hb, hg, hr⟩
      obtain ⟨buf, pos, code, errors⟩ := s
      simp only at hs hb hg hr
      subst hs hb
      rw [← errAfter_some] at hr
      have h1 := (FSem.ofSim (.readCounts _) (.readCounts c.version)).complete _ _ _ _ _ hg rest pos (some x) rfl
      rw [hr] at h1
      refine ⟨⟨rest, pos + (text w).length, c'', some e⟩, ?_⟩
      rw [M.bind_ok h1]
      rfl
  constructor
  · rintro ⟨s', h⟩
    rw [M.bind_def] at h
    split at h
    · next c s1 h1 =>
      have hq := readStart_silent ⟨file, 0, Code.new, none⟩ (some x)
      have hq : readStart ⟨file, 0, Code.new, some x⟩ = (readStart ⟨file, 0, Code.new, none⟩).withErrors (some x) := hq
      rw [h1] at hq
      cases h2 : readStart ⟨file, 0, Code.new, none⟩ with
      | ok c2 s2 =>
        rw [h2] at hq
        have hq : Out.ok c s1 = .ok c2 { s2 with errors := some x } := hq
        injection hq with hq1 hq2
        subst hq1 hq2
        obtain ⟨_, k, hb, hp, hg⟩ := readStart_sem.sound _ _ _ trivial h2 (readStart_clean _ _ _ h2 rfl)
        obtain ⟨w, rest, a, c'', hb2, hg2, hr⟩ := (key c { s2 with errors := some x } rfl).1 ⟨s', h⟩
        have hb : file = k ++ s2.buf := hb
        have hb2 : s2.buf = text w ++ rest := hb2
        have hp : s2.pos = 0 + k.length := hp
        refine .counts k rest w c s2.code c'' a e hg hg2 (by rw [hb, hb2, List.append_assoc]) ?_
        rw [Nat.zero_add] at hp
        rw [← hp]; exact hr
      | err y s2 => rw [h2] at hq; cases hq
      | panic => rw [h2] at hq; cases hq
    · next y s1 h1 =>
      cases h
      rcases (readStart_err _ _ _ _ _).1 ⟨_, h1⟩ with ⟨pre, rest, b, b', rfl, hp, hb, rfl⟩ | ⟨b, rest, rfl, hb, rfl⟩
      · rw [Nat.zero_add]; exact .header pre rest b b' rfl hp hb
      · exact .version b rest rfl hb
    · cases h
  · intro h
    cases h with
    | header pre rest b b' hf hp hb =>
      obtain ⟨s', h⟩ := (readStart_err Code.new (some x) file 0 ⟨.invalidBytecodeHeader, pre.length + 1⟩).2 (.inl ⟨pre, rest, b, b', hf, hp, hb, by simp⟩)
      exact ⟨s', by rw [M.bind_def, h]⟩
    | version b rest hf hb =>
      obtain ⟨s', h⟩ := (readStart_err Code.new (some x) file 0 ⟨.unsupportedBytecodeVersion, 4⟩).2 (.inr ⟨b, rest, hf, hb, rfl⟩)
      exact ⟨s', by rw [M.bind_def, h]⟩
    | counts k rest w c c' c'' a e hg hf hfile hr =>
      have h1 := readStart_sem.complete _ _ _ _ trivial hg (text w ++ rest) 0
      have hq := readStart_silent ⟨k ++ (text w ++ rest), 0, noCode, none⟩ (some x)
      rw [h1] at hq
      have hq : readStart ⟨k ++ (text w ++ rest), 0, Code.new, some x⟩ = .ok c ⟨text w ++ rest, 0 + k.length, c', some x⟩ := hq
      rw [← List.append_assoc, ← hfile] at hq
      rw [M.bind_ok hq]
      exact (key c _ rfl).2 ⟨w, rest, a, c'', rfl, hf, by rw [Nat.zero_add]; exact hr⟩

/-! ## Marked texts without marks -/

theorem plain_of_not_faulty : ∀ w : Marked, faulty w = false → w = plain (text w)
  | [], _ => rfl
  | .byte b :: w, h => by
    have := plain_of_not_faulty w h
    show _ = Mark.byte b :: plain (text w)
    rw [← this]
  | .fault k :: w, h => by cases h

/-- The marked texts of a function without faults are its phrases. -/
theorem unmarked_iff {α : Type} {x : M α} {f : F α} {g : G α} (hf : FSem x f) (hg : Sem x g) (c : Code) (w : Marked) (a : α) (c' : Code) :
    (f c false w a c' ∧ faulty w = false) ↔ ∃ k, w = plain k ∧ g c k a c' := by
  constructor
  · rintro ⟨h, hw⟩
    have h1 := plain_of_not_faulty w hw
    have h2 := hf.complete _ _ _ _ _ h [] 0 none rfl
    have h3 : errAfter none 0 w = none := by rw [h1, errAfter_plain]
    rw [h3] at h2
    obtain ⟨_, k, h4, _, h5⟩ := hg.sound _ _ _ trivial h2 rfl
    simp only [List.append_nil] at h4
    rw [h4] at h1
    exact ⟨k, h1, h5⟩
  · rintro ⟨k, rfl, h⟩
    refine ⟨?_, faulty_plain k⟩
    have h1 := hg.complete _ _ _ _ trivial h [] 0
    obtain ⟨w, h2, _, h3, h4⟩ := hf.sound _ _ _ h1
    simp only [List.append_nil] at h2
    have h3 : (none : Option DecodeError) = errAfter none 0 w := h3
    have h5 := errAfter_isSome w none 0
    rw [← h3] at h5
    have h5 : faulty w = false := by simpa using h5.symm
    rw [plain_of_not_faulty w h5, ← h2] at h4
    exact h4

/-- **C87** The marked texts without marks are the texts of the grammar of C38: the specification of the faults and that of the
accepted files fit together. -/
theorem c87_unmarked (p : Profile) (c d : Code) (v n : Nat) (w : Marked) :
    (∀ a d', (countsF v d false w a d' ∧ faulty w = false) ↔ ∃ k, w = plain k ∧ countsG v d k a d') ∧
    (∀ a d', (F.many natF n d false w a d' ∧ faulty w = false) ↔ ∃ k, w = plain k ∧ G.many natG n d k a d') ∧
    (∀ a d', ((do let c ← typesF c; globalsF c) d false w a d' ∧ faulty w = false) ↔
      ∃ k, w = plain k ∧ (do let c ← typesG c; globalsG c : G Code) d k a d') ∧
    (∀ a d', (nativesF c d false w a d' ∧ faulty w = false) ↔ ∃ k, w = plain k ∧ nativesG c d k a d') ∧
    (c.functions = [] → ∀ a d', (functionsF p c d false w a d' ∧ faulty w = false) ↔ ∃ k, w = plain k ∧ functionsG p c d k a d') ∧
    (∀ a d', (constantF d false w a d' ∧ faulty w = false) ↔ ∃ k, w = plain k ∧ constantG d k a d') := by
  refine ⟨fun a d' => unmarked_iff (.ofSim (.readCounts v) (.readCounts v)) (Sem.readCounts v) d w a d', fun a d' => unmarked_iff (.ofSim (.readBytesPos n) (.readBytesPos n)) (Sem.readBytesPos n) d w a d',
    fun a d' => unmarked_iff (x := readTypes c >>= fun c => M.forRange readGlobalsStep 0 c.nglobals
      { c with globals := List.replicate c.nglobals ValueType.default }) (.ofSim (.bind (.readTypes c) fun c => .forRange (fun _ _ => .readGlobalsStep _ _) _ _ _) (.bind (.readTypes c) fun c => .readGlobals c))
      (Sem.bind (Sem.readTypes c) fun c => Sem.forRange (fun _ _ => True) (fun i c _ => Sem.readGlobalsStep i c) (fun i c => Good.readGlobalsStep i c) _ _ _ trivial
        (fun _ _ _ _ _ _ _ _ => trivial)) d w a d',
    fun a d' => unmarked_iff (.ofSim (.forRange (fun _ _ => .readNativesStep _ _) _ _ _) (.readNatives c)) (Sem.forRange (fun _ _ => True) (fun i c _ => Sem.readNativesStep i c) (fun i c => Good.readNativesStep i c) _ _ _ trivial
      (fun _ _ _ _ _ _ _ _ => trivial)) d w a d',
    fun h a d' => unmarked_iff (.ofSim (.forRange (fun _ _ => .readFunctionsStep _ _ _) _ _ _) (.readFunctions p c h)) (Sem.forRange (fun i c => c.functions.length = i) (fun i c hi => Sem.readFunctionsStep p i c hi)
      (fun i c => Good.readFunctionsStep p i c) _ _ _ (by simp [h]) (fun i c _ _ _ _ hi h => by rw [(Sem.functionsStep_length h).1, hi])) d w a d',
    fun a d' => unmarked_iff (.ofSim .readConstant .readConstant) Sem.readConstant d w a d'⟩

/-! ## The counts, in plain words -/

theorem text_faults_append (w w' : Marked) : ∀ pos, faults pos (w ++ w') = faults pos w ++ faults (pos + (text w).length) w' := by
  induction w with
  | nil => intro pos; rfl
  | cons m w ih =>
    intro pos
    cases m with
    | byte b => simp only [List.cons_append, faults, ih, text, List.length_cons]; congr 2; omega
    | fault k => simp only [List.cons_append, faults, ih, text]

theorem faults_plain (k : List UInt8) : ∀ pos, faults pos (plain k) = [] := by
  induction k with
  | nil => intro pos; rfl
  | cons b k ih => intro pos; exact ih (pos + 1)

/-- The marked text of a number. -/
def natW (q : List UInt8 × Int) : Marked := plain q.1 ++ if q.2 < 0 then [.fault .negativeIndex] else []

theorem natF_natW (c : Code) (b : Bool) (q : List UInt8 × Int) (h : IdxBytes q.1 q.2) : natF c b (natW q) q.2.toNat c := by
  refine ⟨plain q.1, _, q.2, c, rfl, ⟨q.1, rfl, rfl, h⟩, ?_⟩
  by_cases hq : q.2 < 0
  · rw [if_pos hq]
    show (if q.2 < 0 then (do F.mark .negativeIndex; pure 0) else pure q.2.toNat : F Nat) c _ _ _ c
    rw [if_pos hq]
    have : q.2.toNat = 0 := by omega
    rw [this]
    exact ⟨[.fault .negativeIndex], [], (), c, rfl, ⟨rfl, rfl⟩, rfl, rfl, rfl⟩
  · rw [if_neg hq]
    show (if q.2 < 0 then (do F.mark .negativeIndex; pure 0) else pure q.2.toNat : F Nat) c _ _ _ c
    rw [if_neg hq]
    exact ⟨rfl, rfl, rfl⟩

theorem text_natW (q : List UInt8 × Int) : text (natW q) = q.1 := by
  unfold natW
  rw [text_append, text_plain]
  split <;> simp [text]

theorem countsF_natW (v : Nat) (c : Code) (b : Bool) (l : List (List UInt8 × Int)) (hl : l.length = numCounts v)
    (h : ∀ q ∈ l, IdxBytes q.1 q.2) : ∃ a, countsF v c b (l.flatMap natW) a c := by
  have key : ∀ (n : Nat) (l : List (List UInt8 × Int)), l.length = n + 1 → ∃ q l', l = q :: l' ∧ l'.length = n := by
    intro n l h
    cases l with
    | nil => cases h
    | cons q l => exact ⟨q, l, rfl, by simpa using h⟩
  unfold numCounts at hl
  by_cases h4 : 4 ≤ v
  · by_cases h5 : 5 ≤ v
    · simp only [h4, h5, if_true] at hl
      obtain ⟨q1, l1, rfl, hl1⟩ := key _ _ hl
      obtain ⟨q2, l2, rfl, hl2⟩ := key _ _ hl1
      obtain ⟨q3, l3, rfl, hl3⟩ := key _ _ hl2
      obtain ⟨q4, l4, rfl, hl4⟩ := key _ _ hl3
      obtain ⟨q5, l5, rfl, hl5⟩ := key _ _ hl4
      obtain ⟨q6, l6, rfl, hl6⟩ := key _ _ hl5
      obtain ⟨q7, l7, rfl, hl7⟩ := key _ _ hl6
      obtain ⟨q8, l8, rfl, hl8⟩ := key _ _ hl7
      obtain ⟨q9, l9, rfl, hl9⟩ := key _ _ hl8
      obtain ⟨q10, l10, rfl, hl10⟩ := key _ _ hl9
      obtain ⟨q11, l11, rfl, hl11⟩ := key _ _ hl10
      obtain rfl := List.eq_nil_of_length_eq_zero hl11
      simp only [List.flatMap_cons, List.flatMap_nil]
      refine ⟨_, _, _, _, _, rfl, natF_natW _ _ _ (h q1 (by simp)), _, _, _, _, rfl, natF_natW _ _ _ (h q2 (by simp)),
        _, _, _, _, rfl, natF_natW _ _ _ (h q3 (by simp)), _, _, _, _, rfl, natF_natW _ _ _ (h q4 (by simp)),
        _, _, q5.2.toNat, c, rfl, (by unfold natIfF; rw [if_pos h5]; exact natF_natW _ _ _ (h q5 (by simp))),
        _, _, _, _, rfl, natF_natW _ _ _ (h q6 (by simp)), _, _, _, _, rfl, natF_natW _ _ _ (h q7 (by simp)),
        _, _, _, _, rfl, natF_natW _ _ _ (h q8 (by simp)), _, _, _, _, rfl, natF_natW _ _ _ (h q9 (by simp)),
        _, _, q10.2.toNat, c, rfl, (by unfold natIfF; rw [if_pos h4]; exact natF_natW _ _ _ (h q10 (by simp))),
        _, _, _, _, rfl, natF_natW _ _ _ (h q11 (by simp)), rfl, rfl, rfl⟩
    · simp only [h4, h5, if_true, if_false] at hl
      obtain ⟨q1, l1, rfl, hl1⟩ := key _ _ hl
      obtain ⟨q2, l2, rfl, hl2⟩ := key _ _ hl1
      obtain ⟨q3, l3, rfl, hl3⟩ := key _ _ hl2
      obtain ⟨q4, l4, rfl, hl4⟩ := key _ _ hl3
      obtain ⟨q6, l6, rfl, hl6⟩ := key _ _ hl4
      obtain ⟨q7, l7, rfl, hl7⟩ := key _ _ hl6
      obtain ⟨q8, l8, rfl, hl8⟩ := key _ _ hl7
      obtain ⟨q9, l9, rfl, hl9⟩ := key _ _ hl8
      obtain ⟨q10, l10, rfl, hl10⟩ := key _ _ hl9
      obtain ⟨q11, l11, rfl, hl11⟩ := key _ _ hl10
      obtain rfl := List.eq_nil_of_length_eq_zero hl11
      simp only [List.flatMap_cons, List.flatMap_nil]
      refine ⟨_, _, _, _, _, rfl, natF_natW _ _ _ (h q1 (by simp)), _, _, _, _, rfl, natF_natW _ _ _ (h q2 (by simp)),
        _, _, _, _, rfl, natF_natW _ _ _ (h q3 (by simp)), _, _, _, _, rfl, natF_natW _ _ _ (h q4 (by simp)),
        [], _, 0, c, rfl, (by unfold natIfF; rw [if_neg h5]; exact ⟨rfl, rfl, rfl⟩),
        _, _, _, _, rfl, natF_natW _ _ _ (h q6 (by simp)), _, _, _, _, rfl, natF_natW _ _ _ (h q7 (by simp)),
        _, _, _, _, rfl, natF_natW _ _ _ (h q8 (by simp)), _, _, _, _, rfl, natF_natW _ _ _ (h q9 (by simp)),
        _, _, q10.2.toNat, c, rfl, (by unfold natIfF; rw [if_pos h4]; exact natF_natW _ _ _ (h q10 (by simp))),
        _, _, _, _, rfl, natF_natW _ _ _ (h q11 (by simp)), rfl, rfl, rfl⟩
  · have h5 : ¬ 5 ≤ v := by omega
    simp only [h4, h5, if_false] at hl
    obtain ⟨q1, l1, rfl, hl1⟩ := key _ _ hl
    obtain ⟨q2, l2, rfl, hl2⟩ := key _ _ hl1
    obtain ⟨q3, l3, rfl, hl3⟩ := key _ _ hl2
    obtain ⟨q4, l4, rfl, hl4⟩ := key _ _ hl3
    obtain ⟨q6, l6, rfl, hl6⟩ := key _ _ hl4
    obtain ⟨q7, l7, rfl, hl7⟩ := key _ _ hl6
    obtain ⟨q8, l8, rfl, hl8⟩ := key _ _ hl7
    obtain ⟨q9, l9, rfl, hl9⟩ := key _ _ hl8
    obtain ⟨q11, l11, rfl, hl11⟩ := key _ _ hl9
    obtain rfl := List.eq_nil_of_length_eq_zero hl11
    simp only [List.flatMap_cons, List.flatMap_nil]
    refine ⟨_, _, _, _, _, rfl, natF_natW _ _ _ (h q1 (by simp)), _, _, _, _, rfl, natF_natW _ _ _ (h q2 (by simp)),
      _, _, _, _, rfl, natF_natW _ _ _ (h q3 (by simp)), _, _, _, _, rfl, natF_natW _ _ _ (h q4 (by simp)),
      [], _, 0, c, rfl, (by unfold natIfF; rw [if_neg h5]; exact ⟨rfl, rfl, rfl⟩),
      _, _, _, _, rfl, natF_natW _ _ _ (h q6 (by simp)), _, _, _, _, rfl, natF_natW _ _ _ (h q7 (by simp)),
      _, _, _, _, rfl, natF_natW _ _ _ (h q8 (by simp)), _, _, _, _, rfl, natF_natW _ _ _ (h q9 (by simp)),
      [], _, 0, c, rfl, (by unfold natIfF; rw [if_neg h4]; exact ⟨rfl, rfl, rfl⟩),
      _, _, _, _, rfl, natF_natW _ _ _ (h q11 (by simp)), rfl, rfl, rfl⟩

theorem text_natWs (l : List (List UInt8 × Int)) : text (l.flatMap natW) = l.flatMap (·.1) := by
  induction l with
  | nil => rfl
  | cons q l ih => simp only [List.flatMap_cons, text_append, text_natW, ih]

theorem faults_natWs_nil (l : List (List UInt8 × Int)) (h : ∀ q ∈ l, 0 ≤ q.2) : ∀ pos, faults pos (l.flatMap natW) = [] := by
  induction l with
  | nil => intro pos; rfl
  | cons q l ih =>
    intro pos
    have hq : ¬ q.2 < 0 := by have := h q (by simp); omega
    rw [List.flatMap_cons, text_faults_append, ih (fun q hq => h q (List.mem_cons_of_mem _ hq))]
    simp only [natW, if_neg hq, List.append_nil, faults_plain]

theorem reported_concat (l : List DecodeError) (x : DecodeError) (h : x.kind ≠ .invalidType) : Spec.reported (l ++ [x]) = some x := by
  unfold Spec.reported
  rw [List.filter_append, List.filter_cons_of_pos (by simpa using h)]
  simp

/-- **C87** If some of the counts of a file are negative, then it is rejected, and the position is the end of the last negative
count, whatever comes after the counts. -/
theorem c87_negative_counts (p : Profile) (v : UInt8) (hv : 2 ≤ v.toNat ∧ v.toNat ≤ 5) (before after : List (List UInt8 × Int))
    (k : List UInt8) (i : Int) (rest : List UInt8) (hl : (before ++ [(k, i)] ++ after).length = numCounts v.toNat)
    (h : ∀ q ∈ before ++ [(k, i)] ++ after, IdxBytes q.1 q.2) (hi : i < 0) (ha : ∀ q ∈ after, 0 ≤ q.2) :
    ∃ s, Code.read p none ([0x48, 0x4C, 0x42, v] ++ (before ++ [(k, i)] ++ after).flatMap (·.1) ++ rest) =
      .err ⟨.negativeIndex, 4 + (before.flatMap (·.1) ++ k).length⟩ s := by
  rw [c87_rejected_iff]
  obtain ⟨a, h1⟩ := countsF_natW v.toNat Code.new false _ hl h
  refine .inSection _ _ [0x48, 0x4C, 0x42, v] rest _ { Code.new with version := v.toNat } Code.new Code.new a _ .counts
    ⟨[0x48, 0x4C, 0x42], [v], (), Code.new, rfl, ⟨rfl, rfl⟩, [v], [], v.toNat, Code.new, rfl,
      ⟨[v], [], v.toNat, Code.new, rfl, ⟨rfl, v, rfl, rfl⟩, [], [], (), _, rfl, ⟨rfl, hv, rfl⟩, rfl, rfl, rfl⟩, rfl, rfl, rfl⟩ h1 ?_ ?_
  · rw [text_natWs]
  · simp only [List.flatMap_append, text_faults_append, faults_natWs_nil after ha, List.append_nil, List.flatMap_cons, List.flatMap_nil,
      natW, if_pos hi, faults_plain, List.nil_append, text_natWs, text_plain]
    simp only [faults]
    rw [reported_concat _ _ (by simp)]
    congr 2
    simp only [List.length_append, List.length_cons, List.length_nil]
    omega

/-! ## Examples -/

theorem errorOf_some {file : List UInt8} {e : DecodeError} (h : errorOf file = some e) : Rejected .release file e := by
  rw [← c87_rejected_iff]
  unfold errorOf at h
  split at h
  · next y s h' => cases h; exact ⟨s, h'⟩
  · cases h

-- two negative counts: the last one
example : Rejected .release (hdr 4 [0, 0xA0, 1, 0xA0, 1, 0, 0, 0, 0, 0, 0, 0]) ⟨.negativeIndex, 9⟩ := errorOf_some (by decide +kernel)
example : ∃ s, Code.read .dev none ([0x48, 0x4C, 0x42, 3] ++ [0, 0xA0, 1, 0xA0, 2, 7, 7, 7, 7, 7, 7] ++ [1, 2, 3]) = .err ⟨.negativeIndex, 9⟩ s := by
  refine c87_negative_counts .dev 3 (by decide) [([0], 0), ([0xA0, 1], -1)] (List.replicate 6 ([7], 7)) [0xA0, 2] (-2) [1, 2, 3] rfl ?_
    (by decide) (by intro q hq; rw [(List.mem_replicate.mp hq).2]; decide)
  have h0 : IdxBytes [0] 0 := IdxBytes.short 0 (by decide)
  have h1 : IdxBytes [0xA0, 1] (-1) := IdxBytes.mediumNeg 0xA0 1 (by decide) (by decide)
  have h2 : IdxBytes [0xA0, 2] (-2) := IdxBytes.mediumNeg 0xA0 2 (by decide) (by decide)
  have h7 : IdxBytes [7] 7 := IdxBytes.short 7 (by decide)
  intro q hq
  simp only [List.mem_append, List.mem_cons, List.not_mem_nil, or_false, List.mem_replicate] at hq
  rcases hq with ((rfl | rfl) | rfl) | ⟨_, rfl⟩
  · exact h0
  · exact h1
  · exact h2
  · exact h7
-- three globals, all of a type that does not exist: the last one
example : Rejected .release (hdr 4 [0, 0, 0, 0, 1, 3, 0, 0, 0, 0] ++ [0, 0, 0, 0] ++ [3] ++ [1, 2, 3]) ⟨.invalidTypeIndex, 22⟩ :=
  errorOf_some (by decide +kernel)
-- two types of unknown kinds: the first one
example : Rejected .release (hdr 4 [0, 0, 0, 0, 2, 0, 0, 0, 0, 0] ++ [0, 0, 0, 0] ++ [99, 98]) ⟨.invalidType, 19⟩ :=
  errorOf_some (by decide +kernel)
-- a type of unknown kind and then a global of a type that does not exist: the global
example : Rejected .release (hdr 4 [0, 0, 0, 0, 2, 1, 0, 0, 0, 0] ++ [0, 0, 0, 0] ++ [99, 3] ++ [7]) ⟨.invalidTypeIndex, 21⟩ :=
  errorOf_some (by decide +kernel)
-- a type that refers to a type that does not exist, and then a type of unknown kind: the former
example : Rejected .release (hdr 4 [0, 0, 0, 0, 2, 0, 0, 0, 0, 0] ++ [0, 0, 0, 0] ++ [14, 5, 99]) ⟨.invalidTypeIndex, 20⟩ :=
  errorOf_some (by decide +kernel)
-- two constants, both bad: the first one, as they are checked one by one
example : Rejected .release (hdr 4 [0, 0, 0, 0, 0, 0, 0, 0, 2, 0] ++ [0, 0, 0, 0] ++ [0xA0, 1, 0] ++ [0xA0, 1, 0]) ⟨.negativeIndex, 20⟩ :=
  errorOf_some (by decide +kernel)
-- after a fault the functions have no instructions: the byte 200 is not an instruction but the type of the next function
example : Rejected .release (hdr 4 [0, 0, 0, 0, 1, 0, 0, 2, 0, 0] ++ [0, 0, 0, 0] ++ [3] ++ [9, 0, 0, 1] ++ [0x87, 200, 0, 0, 0])
    ⟨.invalidTypeIndex, 25⟩ := errorOf_some (by decide +kernel)

end Verif.Brass
