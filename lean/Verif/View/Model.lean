import Verif.Py.Str

/-! Model of the overview of the elements, `/repo/src/srcmlcpp/cpp_types/base/cpp_element.py:87-95,192-206`. -/

namespace Verif.View
open Verif.Py

/-- An element: the name of its class, its name if it has one (`has_xml_name`, `extract_name_from_xml`), and its scope (`cpp_scope_str` without
itself). -/
structure Element where
  cls : Str
  name : Option Str
  scope : Str
deriving DecidableEq

/-- A list of elements, each with the list of its children: the first element, its children, and the other elements. -/
inductive Forest where
  | none
  | more (first : Element) (children : Forest) (others : Forest)
deriving DecidableEq

/-- `/repo/src/srcmlcpp/cpp_types/base/cpp_element.py:87-95` `short_cpp_element_info` -/
def shortInfo (includeScope : Bool) (e : Element) : Str :=
  let r := e.cls
  let r := match e.name with
    | some name => r ++ " name=".toList ++ name
    | none => r
  if includeScope then (if e.scope.length > 0 then r ++ " scope=".toList ++ e.scope else r) else r

/-- `/repo/src/srcmlcpp/cpp_types/base/cpp_element.py:192-201` `hierarchy_overview`, with `visit_cpp_breadth_first`
(`/repo/src/srcmlcpp/cpp_types/blocks/cpp_block.py:170-178`): the text of the elements of a list, at a depth. -/
def overview (depth : Nat) : Forest → Str
  | .none => []
  | .more e children others =>
    (List.replicate depth [' ', ' ']).flatten ++ shortInfo true e ++ ['\n'] ++ overview (depth + 1) children ++ overview depth others

end Verif.View
