import Verif.Py.Str

/-! Model of `/repo/src/litgen/code_to_adapted_unit.py`: the comments taken out of a unit before it is adapted, with the option
`comments_exclude`.

The visit of the elements is `visit_cpp_breadth_first`, modelled class by class in the part `Ids`. Here an element has a class, its two comments,
the text of a lonely comment, and its children: `head` for the returned type, the parameters and the template of a function, `parts` for all
others. A function with a body visits its block and its list of initializers only. -/

namespace Verif.Exclude
open Verif.Py

/-- What matters of the class of an element. -/
inductive Cls where
  /-- `CppFunction`, `CppConstructor` -/
  | body
  /-- `CppComment` -/
  | comment
  /-- `CppSuper`, which is no `CppElementAndComment` -/
  | bare
  | other
deriving DecidableEq

/-- `/repo/src/srcmlcpp/cpp_types/base/cpp_element_comments.py:40-42`: `comment_on_previous_lines`, `comment_end_of_line`. -/
structure Comments where
  previous : Str
  eol : Str
deriving DecidableEq

inductive Node where
  | mk (cls : Cls) (comments : Comments) (text : Str) (head parts : List Node)

/-- `/repo/src/litgen/code_to_adapted_unit.py:15-21` `cpp_visitor_function`, on the class and the comments of the element. -/
def visitor (cls : Cls) (c : Comments) : Comments := if cls = .bare then c else ⟨[], []⟩

mutual
/-- `/repo/src/litgen/code_to_adapted_unit.py:14-23` `_remove_all_comments`, with the visits of
`/repo/src/srcmlcpp/cpp_types/functions/cpp_function.py:49-54`, `/repo/src/srcmlcpp/cpp_types/functions/cpp_constructor.py:59-66` (functions with a
body), `/repo/src/srcmlcpp/cpp_types/functions/cpp_function_decl.py:477-486` (others) and of the classes cited in the part `Ids`. -/
def removeAll : Node → Node
  | .mk cls c text head parts =>
    .mk cls (visitor cls c) text (if cls = .body then head else removeList head) (removeList parts)
/-- The loops on the children. -/
def removeList : List Node → List Node
  | [] => []
  | n :: l => removeAll n :: removeList l
end

/-- `/repo/src/litgen/code_to_adapted_unit.py:26-38` `code_to_adapted_unit_in_context`: the unit that is adapted; `exclude` is
`options.comments_exclude`. -/
def unitToAdapt (exclude : Bool) (unit : Node) : Node := if exclude then removeAll unit else unit

end Verif.Exclude
