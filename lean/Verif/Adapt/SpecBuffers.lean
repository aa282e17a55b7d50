import Verif.Adapt.Spec

/-! Vocabulary of the properties C37 and C38. -/

namespace Verif.Adapt.Spec
open Verif.Py Verif.Type

/-- The parameter number `i` has the name of a size and comes just after a buffer. -/
def IsSizeAt (o : Options) (ps : List Param) (i : Nat) : Prop :=
  ∃ (j : Nat) (p q : Param), i = j + 1 ∧ ps[j]? = some p ∧ ps[j + 1]? = some q ∧ LooksLikeBuffer o p ∧
    o.bufferSizeName q.name = true

/-- `new` is the type of the array that replaces a buffer of type `cpp`. It says whether C++ may write in the array. -/
def IsArrayType (o : Options) (cpp new : CppType) : Prop :=
  (o.nanobind = true → new.specifiers = [] ∧ new.modifiers = ["&".toList] ∧
    ("const".toList ∈ cpp.specifiers → new.typenames = ["nb::ndarray<nb::ro>".toList]) ∧
    ("const".toList ∉ cpp.specifiers → new.typenames = ["nb::ndarray<>".toList])) ∧
  (o.nanobind = false → new.typenames = ["py::array".toList] ∧ new.modifiers = ["&".toList] ∧
    ("const".toList ∈ cpp.specifiers → new.specifiers = ["const".toList]) ∧
    ("const".toList ∉ cpp.specifiers → new.specifiers = []))

/-- `b` is the last buffer among the parameters number 0 to `i`. -/
def LastBuffer (o : Options) (ps : List Param) (i : Nat) (b : Param) : Prop :=
  ∃ j ≤ i, ps[j]? = some b ∧ LooksLikeBuffer o b ∧ ∀ k q, j < k → k ≤ i → ps[k]? = some q → ¬ LooksLikeBuffer o q

/-- A parameter through which C++ can change a value that Python cannot see changing: a pointer or a reference to a non
const immutable type, or an array of known size of such a type. -/
def HiddenOutput (o : Options) (p : Param) : Prop :=
  "const".toList ∉ p.type.specifiers ∧ o.immutable (join [' '] p.type.typenames) = true ∧
  (p.type.modifiers = ["*".toList] ∨ p.type.modifiers = ["&".toList] ∨
    p.type.modifiers = [] ∧ p.arrayCode ≠ [] ∧ ∃ n, o.arraySize p.arrayCode = some n)

/-- Texts separated by commas. -/
def listText : List Str → Str
  | [] => []
  | x :: r => x ++ (r.flatMap (fun y => ", ".toList ++ y))

end Verif.Adapt.Spec
