import Verif.Attr.Model

/-! Specification of the attributes of a module. -/

namespace Verif.Attr.Spec
open Verif.Py Verif.Type

/-- The specifiers that say how a variable is stored. -/
def storage : List Str := ["static".toList, "constexpr".toList]

/-- The same type without them. -/
def valueType (t : CppType) : CppType := { t with specifiers := t.specifiers.filter (fun s => decide (s ∉ storage)) }

/-- A word that holds neither `static` nor `constexpr` before a blank or at its end. -/
def Foreign (w : Str) : Prop := ∀ s ∈ storage, contains (w ++ [' ']) (s ++ [' ']) = false

/-- The assignment of an attribute in C++. -/
def assigned (var name value : Str) : Str := var ++ ".attr(\"".toList ++ name ++ "\") = ".toList ++ value ++ ";".toList

/-- What `process_code_template` leaves as it is: it does not hold the words of a comma to put, and does not end like the end of a list. -/
def Quiet (v : Str) : Prop := contains v "{maybe_comma}".toList = false ∧ v ≠ [] ∧ v.getLast? ≠ some ' ' ∧ v.getLast? ≠ some ')' ∧ v.getLast? ≠ some ';'

end Verif.Attr.Spec
