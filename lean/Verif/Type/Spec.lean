import Verif.Type.Model

/-! Specification: a type written with its words in order. -/

namespace Verif.Type.Spec
open Verif.Py

/-- The words in order, with one blank between them. -/
def words (ws : List Str) : Str := join [' '] ws

/-- All the parts of the type are non-empty words. -/
def Proper (t : CppType) : Prop := ∀ w ∈ t.specifiers ++ t.typenames ++ t.modifiers, w ≠ []

end Verif.Type.Spec
