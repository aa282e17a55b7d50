import Verif.Query.Model

/-! The content of a class, with the access of each element. -/

namespace Verif.Query.Spec
open Verif.Py Verif.Print

/-- The elements of a zone, with its access. -/
def zoneListing : Elem → List (Str × Elem)
  | .access _ n _ l => l.map (fun x => (n, x))
  | _ => []

/-- All the elements of a class, in the order of the code. -/
def listing (cls : List Elem) : List (Str × Elem) := cls.flatMap zoneListing

/-- A zone with the access `a`. -/
def hasAccess (a : Str) : Elem → Bool
  | .access _ n _ _ => n == a
  | _ => false

/-- The accesses of C++. -/
def accesses : List Str := ["public".toList, "protected".toList, "private".toList]

end Verif.Query.Spec
