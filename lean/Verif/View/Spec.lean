import Verif.View.Model

/-! Specification of the overview: one line for each element, after its parent. -/

namespace Verif.View.Spec
open Verif.Py Verif.View

/-- The elements with their depths, each before its children and after the elements that come before it. -/
def preorder (depth : Nat) : Forest → List (Nat × Element)
  | .none => []
  | .more e children others => (depth, e) :: (preorder (depth + 1) children ++ preorder depth others)

/-- The line of an element: two blanks for each ancestor, its class, its name and its scope if it has them. -/
def line (p : Nat × Element) : Str :=
  List.replicate (2 * p.1) ' ' ++ (p.2.cls ++ ((p.2.name.map (fun n => " name=".toList ++ n)).getD [] ++
    if p.2.scope = [] then [] else " scope=".toList ++ p.2.scope))

/-- A name of class, and texts in one line without blanks. -/
def Word (s : Str) : Prop := ' ' ∉ s ∧ '\n' ∉ s

/-- An element whose class, name and scope are words; the class is not empty and has no line end. -/
def Plain (e : Element) : Prop := e.cls ≠ [] ∧ Word e.cls ∧ (∀ n, e.name = some n → Word n) ∧ Word e.scope

end Verif.View.Spec
