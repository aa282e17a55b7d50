import Verif.Base.Model

/-! Specification: the classes a class inherits from. -/

namespace Verif.Base.Spec
open Verif.Py Verif.Scope

/-- A name as it can be written in a scope. -/
def Ident (s : Str) : Prop := s ≠ [] ∧ ':' ∉ s

/-- `j` is `i`, or a base of `i`, or a base of a base... -/
inductive Ancestor (structs : List Struct) : Nat → Nat → Prop
  | self (i : Nat) : Ancestor structs i i
  | base (i b j : Nat) (s : Struct) (hs : structs[i]? = some s) (hb : b ∈ baseClasses structs s)
      (h : Ancestor structs b j) : Ancestor structs i j

/-- Two methods that override each other. -/
def SameSignature (a b : Method) : Prop := a.name = b.name ∧ a.params = b.params

end Verif.Base.Spec
