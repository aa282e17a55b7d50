import Verif.Elem.Model

/-! What a tree of elements means, independently of the `parent` attributes. -/

namespace Verif.Elem.Spec
open Verif.Py

/-- `i` is in the forest, and `path` lists the elements that enclose it, outermost first. -/
inductive At : Forest → List Nat → Nat → Prop
  | here (i : Nat) (ch sib : Forest) : At (.cons i ch sib) [] i
  | next {sib : Forest} {path : List Nat} {i : Nat} (j : Nat) (ch : Forest) : At sib path i → At (.cons j ch sib) path i
  | down {ch : Forest} {path : List Nat} {i : Nat} (j : Nat) (sib : Forest) : At ch path i → At (.cons j ch sib) (j :: path) i

/-- All the elements. -/
def ids : Forest → List Nat
  | .nil => []
  | .cons i ch sib => i :: ids ch ++ ids sib

/-- An object is in the tree only once. -/
def Distinct (t : Forest) : Prop := (ids t).Nodup

/-- The enclosing scopes among a list of elements. -/
def scopesOf (ks : Kinds) (path : List Nat) : List ScopePart := path.filterMap (fun j => selfScope (ks j))

/-- A member of an `enum` that is not an `enum class`: it is a declaration in the block of the enum. -/
def CEnumMember (ks : Kinds) (path : List Nat) (i : Nat) (outer : List Nat) : Prop :=
  ∃ e b name, ks i = .decl ∧ ks b = .block ∧ ks e = .enum_ false name ∧ path = outer ++ [e, b]

/-- The element of an event of the first kind. -/
def onId : Event → Option Nat
  | .onElement i _ => some i
  | _ => none

end Verif.Elem.Spec
