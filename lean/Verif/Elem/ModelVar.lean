import Verif.Elem.Model

/-! Model of the C++ variables of the generated bindings, `/repo/src/litgen/internal/cpp_to_python.py:662-736`. -/

namespace Verif.Elem
open Verif.Py

def tagOf : ScopeType → Str
  | .classOrStruct => "Class".toList
  | .namespace_ => "Ns".toList
  | .enum_ => "Enum".toList

/-- `/repo/src/litgen/internal/cpp_to_python.py:662-671` `_scope_part_name` -/
def partName (p : ScopePart) : Str := tagOf p.type ++ p.name

/-- `/repo/src/litgen/internal/cpp_to_python.py:684-690`: is the part kept? -/
def keptPart (roots : List Str) (p : ScopePart) : Bool := !(p.type = .namespace_ ∧ p.name ∈ roots)

/-- `/repo/src/litgen/internal/cpp_to_python.py:674-697` `cpp_scope_to_pybind_scope` -/
def pybindScope (roots : List Str) (scope : List ScopePart) : List ScopePart := scope.filter (keptPart roots)

/-- `/repo/src/litgen/internal/cpp_to_python.py:716-722`: a template argument. -/
def argName (param : Str) : Str :=
  replace (replace (replace (replace (replace param " *".toList "_ptr".toList) "*".toList "_ptr".toList)
    " ".toList "_".toList) "std::".toList []) "::".toList "_".toList

/-- `/repo/src/srcmlcpp/cpp_types/template/cpp_i_template_host.py:18`: the specialised parameters of a template host. -/
def tparams : Kind → List Str
  | .struct _ ps => ps
  | .function ps => ps
  | _ => []

/-- `/repo/src/litgen/internal/cpp_to_python.py:708-726` `cpp_scope_to_pybind_var_name`, given `cpp_scope(True)`. -/
def varNameOf (roots : List Str) (scope : List ScopePart) (params : List Str) : Str :=
  match (pybindScope roots scope).map partName with
  | [] => "m".toList
  | parts =>
    let r := "py".toList ++ join "_".toList parts
    if params = [] then r else r ++ "_".toList ++ join "_".toList (params.map argName)

/-- `/repo/src/litgen/internal/cpp_to_python.py:729-736` `cpp_scope_to_pybind_parent_var_name`, given `cpp_scope(False)`. -/
def parentVarNameOf (roots : List Str) (scope : List ScopePart) : Str :=
  match (pybindScope roots scope).map partName with
  | [] => "m".toList
  | parts => "py".toList ++ join "_".toList parts

/-- `cpp_scope_to_pybind_var_name` of an element. -/
def varName (ks : Kinds) (ps : Parents) (fuel : Nat) (roots : List Str) (i : Nat) : Option Str :=
  (cppScope ks ps fuel true i).map (fun s => varNameOf roots s (tparams (ks i)))

/-- `cpp_scope_to_pybind_parent_var_name` of an element. -/
def parentVarName (ks : Kinds) (ps : Parents) (fuel : Nat) (roots : List Str) (i : Nat) : Option Str :=
  (cppScope ks ps fuel false i).map (parentVarNameOf roots)

/-- The variable on which an element is registered: for functions, global variables and macros
`cpp_scope_to_pybind_var_name` (`/repo/src/litgen/internal/adapted_types/adapted_function.py:595`,
`/repo/src/litgen/internal/adapted_types/adapted_decl.py:188`, `/repo/src/litgen/internal/adapted_types/adapted_define.py:109`),
for classes, enums and namespaces `cpp_scope_to_pybind_parent_var_name`
(`/repo/src/litgen/internal/adapted_types/adapted_class.py:726`, `/repo/src/litgen/internal/adapted_types/adapted_enum.py:259`,
`/repo/src/litgen/internal/adapted_types/adapted_namespace.py:123`). -/
def usedVar (ks : Kinds) (ps : Parents) (fuel : Nat) (roots : List Str) (i : Nat) : Option Str :=
  match selfScope (ks i) with
  | some _ => parentVarName ks ps fuel roots i
  | none => varName ks ps fuel roots i

end Verif.Elem
