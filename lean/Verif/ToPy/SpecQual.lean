import Verif.Inst.Spec

/-! Specification: the names of the members of the enclosing scopes take the name of their scope. -/

namespace Verif.ToPy.Spec
open Verif.Py Verif.Inst.Spec

/-- The scopes, each with its Python name and the names of its members, the outermost first. -/
abbrev Scopes := List (Str × List Str)

/-- The first scope that has the member. -/
def owner (scopes : Scopes) (w : Str) : Option Str := (scopes.find? (fun e => decide (w ∈ e.2))).map Prod.fst

/-- The pieces of a text where every word that is a member of a scope and does not follow a dot has the name of the scope and a dot before it;
`dot` says whether a dot comes just before. -/
def qualified (find : Str → Option Str) : Bool → List Piece → List Piece
  | _, [] => []
  | dot, .word w :: l =>
    (match if dot then none else find w with
      | some p => [.word p, .sep '.', .word w]
      | none => [.word w]) ++ qualified find false l
  | _, .sep c :: l => .sep c :: qualified find (c == '.') l

/-- A scope does not have, among its members or the members of the scopes inside it, its own name. -/
def NotInside : Scopes → Prop
  | [] => True
  | e :: l => (∀ e' ∈ e :: l, e.1 ∉ e'.2) ∧ NotInside l

end Verif.ToPy.Spec
