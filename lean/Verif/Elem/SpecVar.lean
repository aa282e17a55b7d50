import Verif.Elem.Spec
import Verif.Elem.ModelVar

/-! What the binding variables should be. -/

namespace Verif.Elem.Spec
open Verif.Py

/-- The three prefixes of the parts of a variable name, as they appear inside the name. -/
def marks : List Str := ["_Class".toList, "_Ns".toList, "_Enum".toList]

/-- A name which contains none of them. -/
def Plain (name : Str) : Prop := ∀ m ∈ marks, ¬ m <:+: name

/-- The element is bound to a variable of its own: it is a class, an enum or a namespace that is not a root one. -/
def HasVar (ks : Kinds) (roots : List Str) (i : Nat) : Bool :=
  match selfScope (ks i) with
  | some p => keptPart roots p
  | none => false

/-- The innermost enclosing element that has a variable. -/
def enclosing (ks : Kinds) (roots : List Str) (path : List Nat) : Option Nat := (path.filter (HasVar ks roots)).getLast?

/-- The variable declared for the enclosing element: `m`, the module, when there is none. -/
def enclosingVar (ks : Kinds) (ps : Parents) (fuel : Nat) (roots : List Str) (path : List Nat) : Option Str :=
  match enclosing ks roots path with
  | none => some "m".toList
  | some e => varName ks ps fuel roots e

/-- Characters of template arguments that are kept as they are. -/
def PlainArg (s : Str) : Prop := s ≠ [] ∧ ∀ c ∈ s, c ≠ '*' ∧ c ≠ ' ' ∧ c ≠ ':' ∧ c ≠ '_'

end Verif.Elem.Spec
