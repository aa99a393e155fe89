import Verif.Brass.Types
import Verif.Spec.Base

/-!
# The strings in a function

For C107.
-/

namespace Verif.Brass.Spec

open Verif.Brass

mutual
/-- All the strings in a type, in the types it consists of too. -/
def stringsIn : ValueType → List Str
  | ⟨u, a, t, _⟩ => stringsInU u ++ a.toList ++ stringsInOpt t
/-- … in the union of a type -/
def stringsInU : ValueTypeU → List Str
  | .func args _ ret => stringsInTypes args ++ stringsIn ret
  | .obj name sup fields _ _ _ protos _ _ _ => name :: stringsIn sup ++ stringsInFields fields ++ protos.map ObjProto.name
  | .virt _ fields => stringsInFields fields
  | .enum name _ constructs _ => name :: stringsInConstructs constructs
  | .ref t => stringsIn t
  | .abstract name => [name]
  | .null => []
  | .void => []
/-- … in an optional type -/
def stringsInOpt : Option ValueType → List Str
  | none => []
  | some t => stringsIn t
/-- … in a list of types -/
def stringsInTypes : List ValueType → List Str
  | [] => []
  | t :: l => stringsIn t ++ stringsInTypes l
/-- … in a list of fields -/
def stringsInFields : List ObjField → List Str
  | [] => []
  | ⟨name, _, t⟩ :: l => name :: stringsIn t ++ stringsInFields l
/-- … in a list of constructs -/
def stringsInConstructs : List EnumConstruct → List Str
  | [] => []
  | ⟨name, _, ts, _, _, _⟩ :: l => name :: stringsInTypes ts ++ stringsInConstructs l
end

mutual
/-- All the strings in a function. -/
def stringsInFunction : HLFunction → List Str
  | ⟨t, _, _, _, _, regs, _, _, obj, field⟩ =>
    stringsIn t ++ stringsInTypes regs ++ (match obj with | none => [] | some u => stringsInU u) ++ stringsInFuncField field
/-- … in the method it is, if any -/
def stringsInFuncField : Option FuncField → List Str
  | none => []
  | some ⟨name, rf⟩ => name :: stringsInFunction? rf
/-- … in an optional function -/
def stringsInFunction? : Option HLFunction → List Str
  | none => []
  | some f => stringsInFunction f
end

/-- The strings are Unicode texts, as those of a Rust program are. -/
def AreTexts (l : List Str) : Prop := ∀ s ∈ l, ∃ t : Text, s = utf8 t

end Verif.Brass.Spec
