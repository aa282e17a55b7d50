import Verif.Tpl.Model

/-! Specification of names. -/

namespace Verif.Tpl.Spec
open Verif.Py

/-- Characters of identifiers. -/
def isIdent (c : Char) : Bool := c.isAlphanum || c = '_'

/-- Every `:` belongs to a `::`. -/
inductive ColonsPaired : Str → Prop
  | nil : ColonsPaired []
  | char (c : Char) (s : Str) : c ≠ ':' → ColonsPaired s → ColonsPaired (c :: s)
  | pair (s : Str) : ColonsPaired s → ColonsPaired (':' :: ':' :: s)

/-- A simple type: qualified names, pointers, references and blanks, but no template arguments. -/
def SimpleType (t : Str) : Prop :=
  ColonsPaired t ∧ ∀ c ∈ t, isIdent c = true ∨ c = ' ' ∨ c = '&' ∨ c = '*' ∨ c = ':'

/-- At most one of the specifications matches the name. -/
def Unambiguous (specs : List TSpec) (name : Str) : Prop :=
  specs.Pairwise (fun a b => ¬ (a.matches_ name = true ∧ b.matches_ name = true))

end Verif.Tpl.Spec
