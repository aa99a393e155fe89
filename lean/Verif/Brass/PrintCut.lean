import Verif.Brass.PrintLemmas
import Verif.Brass.ReportFile
import Verif.Spec.Print

/-!
# Up to which function a file is printed
-/

namespace Verif.Brass

open Verif Verif.Brass.Spec

theorem readBefore_sem : Sem readBefore upToFunctionsG := by
  have e : readBefore = readHeader >>= readPools >>= readBytesSection >>= readDebugFiles >>= readTypesGlobals >>= readNatives := by
    unfold readBefore readTables readHeader readStart readTypesGlobals
    simp only [M.bind_assoc]
    rfl
  rw [e]
  have s1 : Sem (readHeader >>= Brass.readPools) upToStringsG := Sem.bind readHeader_sem fun c => Sem.readPools c
  have s2 : Sem (readHeader >>= Brass.readPools >>= Brass.readBytesSection) (upToStringsG >>= bytesSectionG) := Sem.bind s1 fun c => Sem.readBytesSection c
  have s3 : Sem (readHeader >>= Brass.readPools >>= Brass.readBytesSection >>= Brass.readDebugFiles) upToTypesG := by
    rw [upToTypesG_eq]; exact Sem.bind s2 fun c => Sem.readDebugFiles c
  have s4 : Sem (readHeader >>= Brass.readPools >>= Brass.readBytesSection >>= Brass.readDebugFiles >>= Brass.readTypesGlobals) upToNativesG :=
    Sem.bind s3 fun c => Sem.bind (Sem.readTypes c) fun c => Sem.readGlobals c
  exact Sem.bind s4 fun c => Sem.readNatives c

/-- The functions that were read, in the words of `loop_cases`. -/
theorem step_ok (p : Profile) (a : Nat) (c : Code) (s : St) (c' : Code) (s' : St) :
    readFunctionsStep p a c s = .ok c' s' ↔ ∃ f s1 u, readFunction { s with code := c } = .ok f s1 ∧
      readFunctionDebug p a { s1 with code := { s1.code with functions := s1.code.functions ++ [f] } } = .ok u s' ∧ c' = s'.code := by
  constructor
  · intro h1
    obtain ⟨_, s0, e0, h1⟩ := M.bind_eq_ok (x := M.setCode c) h1
    cases e0
    obtain ⟨f, s1, e1, h1⟩ := M.bind_eq_ok (x := readFunction) h1
    obtain ⟨_, _, e2, h1⟩ := M.bind_eq_ok (x := M.getCode) h1
    cases e2
    obtain ⟨_, _, e2, h1⟩ := M.bind_eq_ok h1
    cases e2
    obtain ⟨u, s2, e3, h1⟩ := M.bind_eq_ok (x := readFunctionDebug p a) h1
    cases h1
    exact ⟨f, s1, u, e1, e3, rfl⟩
  · rintro ⟨f, s1, u, e1, e3, rfl⟩
    unfold readFunctionsStep
    rw [M.bind_ok (show M.setCode c s = .ok () { s with code := c } from rfl), M.bind_ok e1,
      M.bind_ok (show M.getCode s1 = .ok s1.code s1 from rfl), M.bind_ok (show M.setCode _ s1 = .ok () _ from rfl), M.bind_ok e3]
    rfl

/-- A function that is there is printed, and so are the functions before it. -/
theorem loop_reached (p : Profile) (rest : List UInt8) (f : HLFunction) (cf : Code) : ∀ (i n a : Nat) (c d : Code) (k : List UInt8) (pos : Nat), i < n → c.functions.length = a →
    (G.loop (functionsStepG p) a i c >>= fun c => G.setCode c >>= fun _ => functionG) d k f cf →
    (W.forRange (readFunctionsStepW p) a n c ⟨k ++ rest, pos, d, none⟩).2[i]? = some (.function f)
  | 0, n + 1, a, c, d, k, pos, _, _, h => by
    obtain ⟨_, _, _, _, rfl, ⟨rfl, rfl, rfl⟩, _, _, _, _, rfl, ⟨rfl, rfl⟩, h⟩ := h
    rw [loop_cases]
    simp only [List.nil_append]
    rw [Sem.readFunction.complete _ _ _ _ trivial h]
    rfl
  | i + 1, n + 1, a, c, d, k, pos, hi, ha, h => by
    obtain ⟨_, k3, c2, d2, rfl, ⟨k1, k2, c1, d1, rfl, h1, h2⟩, h3⟩ := h
    have e1 := (Sem.readFunctionsStep p a c ha).complete _ _ _ _ trivial h1 (k2 ++ k3 ++ rest) pos
    obtain ⟨g, s1, u, e2, e3, e4⟩ := (step_ok ..).1 e1
    have i1 := loop_reached p rest f cf i n (a + 1) c1 d1 (k2 ++ k3) (pos + k1.length) (by omega)
      (by rw [(Sem.functionsStep_length h1).1, ha]) ⟨k2, k3, c2, d2, rfl, h2, h3⟩
    rw [loop_cases]
    simp only [List.append_assoc] at e2 i1 e3 ⊢
    rw [e2]
    simp only
    rw [e3]
    rw [e4] at i1
    exact i1
  | 0, 0, _, _, _, _, _, hi, _, _ => absurd hi (Nat.lt_irrefl _)
  | i + 1, 0, _, _, _, _, _, hi, _, _ => absurd hi (Nat.not_lt_zero _)

/-- What is printed is there. -/
theorem loop_printed (p : Profile) (z : List UInt8) (l : Line) : ∀ (i n a : Nat) (c : Code) (s : St) (cz : Code) (sz : St), c.functions.length = a →
    M.forRange (readFunctionsStep p) a n c (s.extend z) = .ok cz sz → sz.errors = none →
    (W.forRange (readFunctionsStepW p) a n c s).2[i]? = some l →
    ∃ k r f cf, i < n ∧ s.buf = k ++ r ∧ l = .function f ∧ (G.loop (functionsStepG p) a i c >>= fun c => G.setCode c >>= fun _ => functionG) s.code k f cf
  | _, 0, _, _, _, _, _, _, _, _, h => by cases h
  | i, n + 1, a, c, s, cz, sz, ha, hz, he, h => by
    obtain ⟨b, s3, h1, h2⟩ := M.bind_eq_ok (x := readFunctionsStep p a c) hz
    have he3 : s3.errors = none := (Good.forRange (fun i b => Good.readFunctionsStep p i b) n (a + 1) b).none_of h2 he
    obtain ⟨g, s1, u, e1, e2, rfl⟩ := (step_ok ..).1 h1
    rw [loop_cases] at h
    cases h1' : readFunction { s with code := c } with
    | err e s1 => rw [h1'] at h; cases h
    | panic => rw [h1'] at h; cases h
    | ok f t1 =>
      have e1' : readFunction { s.extend z with code := c } = .ok f (t1.extend z) := ExtAll.readFunction _ _ _ z h1'
      have e1 : readFunction { s.extend z with code := c } = .ok g s1 := e1
      rw [e1'] at e1
      cases e1
      rw [h1'] at h
      simp only at h
      have het : t1.errors = none := by
        have h0 := (Good.readFunctionDebug p a).none_of e2 he3
        exact h0
      cases i with
      | zero =>
        simp only [List.getElem?_cons_zero, Option.some.injEq] at h
        obtain ⟨-, k, h4, -, h5⟩ := Sem.readFunction.sound _ _ _ trivial h1' het
        exact ⟨k, t1.buf, g, _, by omega, h4, h.symm, [], k, c, s.code, rfl, ⟨rfl, rfl, rfl⟩, [], k, (), c, rfl, ⟨rfl, rfl⟩, h5⟩
      | succ i =>
        rw [List.getElem?_cons_succ] at h
        cases h2' : readFunctionDebug p a { t1 with code := { t1.code with functions := t1.code.functions ++ [g] } } with
        | err e s1 => rw [h2'] at h; cases h
        | panic => rw [h2'] at h; cases h
        | ok u' t2 =>
          have e2' : readFunctionDebug p a { t1.extend z with code := { (t1.extend z).code with functions := (t1.extend z).code.functions ++ [g] } } =
            .ok u' (t2.extend z) := ExtAll.readFunctionDebug _ _ _ z h2'
          rw [e2'] at e2
          cases e2
          rw [h2'] at h
          simp only at h
          have st : readFunctionsStep p a c s = .ok t2.code t2 := (step_ok ..).2 ⟨g, t1, u, h1', h2', rfl⟩
          obtain ⟨-, k1, b1, -, g1⟩ := (Sem.readFunctionsStep p a c ha).sound _ _ _ trivial st he3
          obtain ⟨k, r, f', cf, h5, h6, h7, k2, k3, c2, d2, rfl, h8, h9⟩ := loop_printed p z l i n (a + 1) t2.code t2 cz sz
            (by rw [(Sem.functionsStep_length g1).1, ha]) h2 he h
          exact ⟨k1 ++ (k2 ++ k3), r, f', cf, by omega, by rw [b1, h6]; simp, h7, k1 ++ k2, k3, c2, d2, by simp, ⟨k1, k2, _, _, rfl, g1, h8⟩, h9⟩

end Verif.Brass
