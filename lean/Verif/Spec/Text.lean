import Verif.Spec.Grammar

/-!
# Vocabulary of the properties on strings and names (C89, C90)
-/

namespace Verif.Brass.Spec

open Verif Verif.Brass

/-- `Cut n t ss`: reading at most `n` strings from the text `t` gives `ss`.  The strings lie one after the other, with any
one-byte character between them; the reading stops when the text is used up, or after `n` strings. -/
inductive Cut : Nat → Text → List Text → Prop where
  | none (t : Text) : Cut 0 t []
  | last (n : Nat) (s : Text) : Cut (n + 1) s [s]
  | enough (s t : Text) : Cut 1 (s ++ t) [s]
  | more (n : Nat) (s : Text) (ch : Char) (t : Text) (ss : List Text) : ch.val.toNat < 128 → Cut (n + 1) t ss →
      Cut (n + 2) (s ++ ch :: t) (s :: ss)

/-- The sizes in bytes of strings, as indexes one after the other. -/
inductive Sizes : List Text → List UInt8 → Prop where
  | nil : Sizes [] []
  | cons (s : Text) (ss : List Text) (k ks : List UInt8) : IdxBytes k ((utf8 s).length : Nat) → Sizes ss ks → Sizes (s :: ss) (k ++ ks)

/-- A row of slots, each of which may hold the index of a string, after `v` is put in at slot `i`: what was in slot `i` or
after it has moved on by one. -/
def putIn (slots : Nat → Option Nat) (i : Nat) (v : Option Nat) (j : Nat) : Option Nat :=
  if j < i then slots j else if j = i then v else slots (j - 1)

/-- The indexes of the strings that a sequence of lookups returns, if `present` strings exist.  A lookup of `i` returns what
slot `i` holds; if it is empty it returns `i`, which is put in (nothing is, if there is no such string). -/
def answered (present : Nat) (slots : Nat → Option Nat) : List Nat → List Nat
  | [] => []
  | i :: l =>
    match slots i with
    | some x => x :: answered present slots l
    | none => i :: answered present (putIn slots i (if i < present then some i else none)) l

/-- The fields of an object, struct or virtual type. -/
def fieldsOf (t : ValueType) : List ObjField :=
  match t.union with
  | .obj _ _ fields _ _ _ _ _ _ _ => fields
  | .virt _ fields => fields
  | _ => []

/-- The methods of an object or struct type. -/
def methodsOf (t : ValueType) : List ObjProto :=
  match t.union with
  | .obj _ _ _ _ _ _ methods _ _ _ => methods
  | _ => []

/-- The names a type consists of; the types it refers to have their own. -/
def namesOf (t : ValueType) : List Str :=
  t.absName.toList ++ (fieldsOf t).map ObjField.name ++ (methodsOf t).map ObjProto.name ++
  match t.union with
  | .obj name _ _ _ _ _ _ _ _ _ => [name]
  | .enum name _ constructs _ => name :: constructs.map EnumConstruct.name
  | .abstract name => [name]
  | _ => []

/-- `s` may be a name in the module `c`: it is a string of the pool, or it stands for one that is declared but missing. -/
def NameIn (c : Code) (s : Str) : Prop := s ∈ c.strings ∨ (s = [] ∧ c.strings.length < c.nstrings)

end Verif.Brass.Spec

namespace Verif.Brass

/-- The types a type refers to directly. -/
def ValueType.refs (t : ValueType) : List ValueType :=
  (match t.union with
   | .func args _ ret => args ++ [ret]
   | .obj _ sup fields _ _ _ _ _ _ _ => sup :: fields.map ObjField.t
   | .virt _ fields => fields.map ObjField.t
   | .enum _ _ constructs _ => constructs.flatMap EnumConstruct.params
   | .ref t => [t]
   | .abstract _ | .null | .void => []) ++ t.tparam.toList

/-- The name and the field names of an object type. -/
def objNames (t : ValueType) : Option (Str × List Str) :=
  match t.union with
  | .obj name _ fields _ _ _ _ _ _ _ => some (name, fields.map ObjField.name)
  | _ => none

/-- One of the declared types of a module. -/
def Code.IsType (c : Code) (t : ValueType) : Prop := ∃ j : Nat, j < c.ntypes ∧ c.types[j]? = some t

end Verif.Brass
