import Verif.Type.Model
import Verif.Template.Model
import Verif.Num.Model

/-! Model of the attributes of a module: the global variables (`/repo/src/litgen/internal/adapted_types/adapted_decl.py:170-197`) and the macros
(`/repo/src/litgen/internal/adapted_types/adapted_define.py:77-120`). -/

namespace Verif.Attr
open Verif.Py Verif.Type Verif.Template

/-- A global variable: `decl_name`, `cpp_type`, `initial_value_code` of its `CppDecl`. -/
structure Global where
  name : Str
  type : CppType
  init : Str
deriving DecidableEq

/-- `/repo/src/litgen/internal/adapted_types/adapted_decl.py:185-186` -/
def castType (type : Str) : Str := replace (replace type "static ".toList []) "constexpr ".toList []

/-- `/repo/src/litgen/internal/adapted_types/adapted_decl.py:181-190` `AdaptedGlobalDecl.pydef_lines`; `var` is the variable of the module
(`varName` of `Verif.Elem`), `none` is the exception of `str_code`. -/
def globalPydef (var : Str) (g : Global) : Option (List Str) :=
  (strCode g.type).map (fun type => [var ++ ".attr(\"".toList ++ g.name ++ "\") = (".toList ++ castType type ++ ") ".toList ++ g.init ++ ";".toList])

/-- `/repo/src/litgen/internal/adapted_types/adapted_decl.py:38-45` `decl_value_python`; `valuePy` is `var_value_to_python`, `none` the exception
of a type without name. -/
def globalValue (valuePy : Str → Str) (g : Global) : Option Str :=
  let v := strip g.init
  if startsWith v ['{'] && endsWith v ['}'] then
    g.type.typenames.head?.map (fun t => valuePy (t ++ ['('] ++ (v.drop 1).dropLast ++ [')']))
  else some (valuePy v)

/-- `/repo/src/litgen/internal/adapted_types/adapted_decl.py:192-197` `AdaptedGlobalDecl.stub_lines` and `decl_type_python` (47-50); `typePy` is
`type_to_python`. -/
def globalStub (typePy valuePy : Str → Str) (g : Global) : Option (List Str) :=
  match globalValue valuePy g, strCode g.type with
  | some v, some t => some [g.name ++ ": ".toList ++ typePy t ++ "  # = ".toList ++ v]
  | _, _ => none

/-- `/repo/src/litgen/internal/adapted_types/adapted_block.py:154-164`: the variables of a statement that become attributes; `included` is the
match with `globals_vars_include_by_name__regex`. -/
def statementGlobals (included : Str → Bool) (decls : List Global) : List Global := decls.filter (fun g => included g.name)

/-- `/repo/src/litgen/internal/adapted_types/adapted_define.py:95-105` `AdaptedDefine.stub_lines`; `name` is `published_name` (77-79), `comment`
the lines of `comment_python_previous_lines`. -/
def defineStub (comment : List Str) (name value : Str) : List Str :=
  comment ++ [processCodeTemplate "{published_name} = {macro_value}".toList
    [("published_name".toList, name), ("macro_value".toList, Num.publishedPythonValue value)]]

/-- `/repo/src/litgen/internal/adapted_types/adapted_define.py:107-120` `AdaptedDefine.pydef_lines` -/
def definePydef (var name value : Str) : List Str :=
  [processCodeTemplate "{m}.attr(\"{published_name}\") = {macro_value};".toList
    [("m".toList, var), ("published_name".toList, name), ("macro_value".toList, value)]]

end Verif.Attr
