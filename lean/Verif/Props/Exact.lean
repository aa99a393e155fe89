import Verif.Brass.Exact

/-!
# Exactly which modules are read correctly (C113)
-/

namespace Verif.Brass

open Verif Verif.Brass.Spec

/-- **C113** Among all modules that can be written to a file, `Code::read` reads correctly only those of a version from 2 to 5
with all numbers and sizes below `0x2000`, without bytes, constants and debug files where the version or the debug flag does
not provide for them, and declaring something. -/
theorem c113_only_readable (m : RModule) (hw : m.Writable) (p : Profile) (rest : List UInt8) (u : List (Option Str)) (s : St)
    (h : Code.read p none (m.encode ++ rest) = .ok { m.decoded with ustrings := u } s) : m.Readable ∧ m.NotBare :=
  readable_of_right hw h

/-- **C113** So it reads a module correctly exactly if the module is readable, declares something, and the cache answers each name
of its types with the right text. -/
theorem c113_exactly (m : RModule) (hw : m.Writable) (p : Profile) (rest : List UInt8) :
    (∃ u s, Code.read p none (m.encode ++ rest) = .ok { m.decoded with ustrings := u } s) ↔ m.Right ∧ m.NotBare := by
  constructor
  · rintro ⟨u, s, h⟩
    obtain ⟨h1, h2⟩ := c113_only_readable m hw p rest u s h
    exact ⟨⟨h1, (c112_right_iff m h1 h2 p rest).1 ⟨u, s, h⟩⟩, h2⟩
  · rintro ⟨h1, h2⟩
    exact (c112_right_iff m h1.toReadable h2 p rest).2 h1.found

/-- Every readable module can be written. -/
theorem Spec.RModule.Readable.writable {m : RModule} (h : m.Readable) : m.Writable where
  entrypoint := by have := h.entrypoint; omega
  nints := by have := h.nints; omega
  nfloats := by have := h.nfloats; omega
  nstrings := by have := h.nstrings; omega
  strings := ⟨fun s hs => by have := h.strings s hs; omega, by have := Enc.blob_lt _ h.strings; have := h.nstrings; omega⟩
  nbytes := by have := h.nbytes; omega
  bytesPos := fun v hv => by have := h.bytesPos v hv; omega
  ndebugFiles := by have := h.ndebugFiles; omega
  debugFiles := ⟨fun s hs => by have := h.debugFiles s hs; omega, by have := Enc.blob_lt _ h.debugFiles; have := h.ndebugFiles; omega⟩
  ntypes := by have := h.ntypes; omega
  types := fun t ht => by
    obtain ⟨h1, h2⟩ := h.types t ht
    refine ⟨?_, h2⟩
    cases t with
    | prim k => exact h1
    | func _ args _ => exact h1
    | obj _ _ _ global fields protos bindings =>
      obtain ⟨a, b, c, d, e, f⟩ := h1
      exact ⟨by omega, by omega, by omega, by omega, fun x hx => by have := e x hx; omega, fun x hx => by have := f x hx; omega⟩
    | virt fields =>
      have : fields.length < 0x2000 := h1
      show fields.length < 2 ^ 29
      omega
    | enum _ global cs =>
      obtain ⟨a, b, c⟩ := h1
      exact ⟨by omega, by omega, fun x hx => by have := c x hx; omega⟩
    | _ => trivial
  nglobals := by have := h.nglobals; omega
  globals := h.globals
  nnatives := by have := h.nnatives; omega
  natives := fun n hn => by have := h.natives n hn; omega
  nfunctions := by have := h.nfunctions; omega
  functions := fun f hf => by
    have g := h.functions f hf
    refine ⟨g.type, by have := g.findex; omega, by have := g.nregs; omega, g.regs, by have := g.nops; omega, ?_, g.debug, g.assigns⟩
    intro o ho
    have ok := g.ops o ho
    cases o with
    | plain op args => exact ⟨ok.1, ok.2.1, fun a ha => by have := ok.2.2 a ha; omega⟩
    | call op dst fn args => exact ⟨ok.1, ok.2.1, by have := ok.2.2.1; omega, by have := ok.2.2.2.1; omega, fun a ha => by have := ok.2.2.2.2 a ha; omega⟩
    | switch reg ts e => exact ⟨by have := ok.1; omega, by have := ok.2.1; omega, by have := ok.2.2.1; omega, fun a ha => by have := ok.2.2.2 a ha; omega⟩
  nconstants := by have := h.nconstants; omega
  constants := fun c hc => by
    obtain ⟨a, b, d⟩ := h.constants c hc
    exact ⟨by omega, by omega, fun f hf => by have := d f hf; omega⟩

/-- `mixedModule` with its names in order, entry point `e` and a method `f`. -/
def sizedModule (e f : Nat) : RModule :=
  { mixedModule with entrypoint := e, types := [.prim .HI32, .obj false 0 none 0 [⟨1, 0⟩, ⟨2, 0⟩] [⟨3, f, -1⟩] []] }

theorem sizedModule_readable (e f : Nat) (he : e < 0x2000) (hf : f < 0x2000) : (sizedModule e f).Readable :=
  { mixedModule_readable with
    entrypoint := he
    ntypes := by show 2 < _; decide
    types := by
      intro t ht
      simp only [sizedModule, List.mem_cons, List.not_mem_nil, or_false] at ht
      rcases ht with rfl | rfl
      · exact ⟨by simp only [RType.Small]; decide, by simp [RType.refs], by simp [RType.names]⟩
      · refine ⟨⟨by decide, by decide, by simp, by decide, ?_, by simp⟩, by simp [RType.refs, sizedModule], by simp [RType.names, sizedModule, mixedModule]⟩
        intro x hx
        simp only [List.mem_cons, List.not_mem_nil, or_false] at hx
        subst hx
        exact ⟨hf, by simp⟩
    globals := by simp [sizedModule, mixedModule]
    natives := by simp [sizedModule, mixedModule]
    functions := by simp [sizedModule, mixedModule] }

theorem sizedModule_writable (e f : Nat) (he : e < 2 ^ 29) (hf : f < 2 ^ 29) : (sizedModule e f).Writable :=
  { (sizedModule_readable 0 0 (by decide) (by decide)).writable with
    entrypoint := he
    ntypes := by show 2 < _; decide
    types := by
      intro t ht
      simp only [sizedModule, List.mem_cons, List.not_mem_nil, or_false] at ht
      rcases ht with rfl | rfl
      · exact ⟨by simp only [RType.Writable]; decide, by simp [RType.refs], by simp [RType.names]⟩
      · refine ⟨⟨by decide, by decide, by simp, by decide, ?_, by simp⟩, by simp [RType.refs, sizedModule], by simp [RType.names, sizedModule, mixedModule]⟩
        intro x hx
        simp only [List.mem_cons, List.not_mem_nil, or_false] at hx
        subst hx
        exact ⟨hf, by simp⟩
    functions := by simp [sizedModule, mixedModule] }

/-- The hypotheses of C113 are satisfiable, by modules that are read correctly and by modules that are not. -/
example (e f : Nat) (he : e < 2 ^ 29) (hf : f < 2 ^ 29) (p : Profile) (rest : List UInt8) :
    (∃ u s, Code.read p none ((sizedModule e f).encode ++ rest) = .ok { (sizedModule e f).decoded with ustrings := u } s) ↔ e < 0x2000 ∧ f < 0x2000 := by
  rw [c113_exactly _ (sizedModule_writable e f he hf)]
  constructor
  · rintro ⟨h, -⟩
    have := (h.types (.obj false 0 none 0 [⟨1, 0⟩, ⟨2, 0⟩] [⟨3, f, -1⟩] []) (by simp [sizedModule])).1
    exact ⟨h.entrypoint, (this.2.2.2.2.1 ⟨3, f, -1⟩ (by simp)).1⟩
  · rintro ⟨h1, h2⟩
    exact ⟨⟨sizedModule_readable e f h1 h2, rfl⟩, .inr (.inl (by simp [sizedModule]))⟩

example : mixedModule.Writable ∧ exampleModule.Writable ∧ ¬ (sizedModule 0x2000 7).Readable :=
  ⟨mixedModule_readable.writable, exampleModule_good.toReadable.writable, fun h => absurd h.entrypoint (by decide)⟩

/-- As `mixedModule`, but the strings 1 and 2 are the same. -/
def twinModule : RModule := { mixedModule with strings := [['a'], ['b'], ['b'], ['d']] }

/-- It is read correctly, although its names are not looked up in order: for string 2 string 1 is found, which has the same text. -/
example : twinModule.Right ∧ twinModule.NotBare ∧ ¬ twinModule.Good ∧ ¬ mixedModule.Right ∧
    answered twinModule.strings.length (fun _ => none) (twinModule.types.flatMap RType.names) ≠ twinModule.types.flatMap RType.names := by
  refine ⟨⟨{ mixedModule_readable with strings := by decide +kernel, functions := by simp [twinModule, mixedModule] }, ?_⟩,
    .inr (.inl (by decide)), fun h => absurd h.order (by decide), fun h => ?_, by decide⟩
  · show List.map _ _ = List.map _ _
    decide
  · have : List.map _ _ = List.map _ _ := h.found
    revert this
    decide

end Verif.Brass
