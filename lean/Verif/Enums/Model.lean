import Verif.Keyword.Model
import Verif.Comment.Model
import Verif.Indent.Model

/-! Model of the binding of enumerations, `/repo/src/litgen/internal/adapted_types/adapted_enum.py`. The Python names of the members are in
`Verif.Keyword`, their values in `Verif.Num`, the escaping of their comments in `Verif.Escape`. -/

namespace Verif.Enums
open Verif.Py Verif.Name Verif.Repl

/-- What is read of a member of the enumeration: its name and its comment, already on one line and escaped
(`/repo/src/litgen/internal/adapted_types/adapted_element.py:122-124`). -/
structure Member where
  name : Str
  comment : Str
deriving DecidableEq

/-- What is read of an enumeration. `isClass` is `enum_type == "class"`, `scope` are the names of the enclosing scopes, `parentVar` is
`cpp_scope_to_pybind_parent_var_name`, `location` the text of `_elm_info_original_location_cpp`. -/
structure EnumDecl where
  name : Str
  isClass : Bool
  scope : List Str
  parentVar : Str
  comment : Str
  location : Str
  members : List Member
deriving DecidableEq

/-- The options that are read here. The regular expressions are represented by the set of the names they match. -/
structure Options where
  names : Keyword.Options
  /-- `enum_flag_skip_count` -/
  skipCount : Bool
  /-- `fn_params_buffer_size_names__regex` -/
  isSize : Str → Bool
  /-- `enum_make_arithmetic__regex` -/
  arithmetic : Str → Bool
  /-- `enum_make_flag__regex` -/
  flag : Str → Bool
  /-- `enum_export_values` -/
  exportValues : Bool
  pybind : Bool
  /-- `_indent_cpp_spaces()` -/
  indent : Str

/-- `/repo/src/codemanip/code_utils.py:698-707` `var_name_contains_word` -/
def varNameContainsWord (varName word : Str) : Bool :=
  let varName := strip (toSnakeCase varName)
  let word := lower word
  if contains varName [' '] then false
  else (splitOn '_' varName).any (fun part => part == word)

/-- `/repo/src/litgen/internal/cpp_to_python.py:640-654` `enum_element_is_count` -/
def isCount (o : Options) (e : EnumDecl) (value : Str) : Bool :=
  if !o.skipCount then false
  else if !o.isSize value then false
  else if e.isClass then true
  else varNameContainsWord (lower value) (lower e.name)

/-- `/repo/src/litgen/internal/adapted_types/adapted_enum.py:190-202` `_fill_children`: the members that are kept. -/
def kept (o : Options) (e : EnumDecl) : List Member := e.members.filter (fun m => !isCount o e m.name)

/-- `/repo/src/srcmlcpp/cpp_types/base/cpp_element.py:121-160` `cpp_scope_str` of an enumeration. -/
def scopeStr (e : EnumDecl) (includeSelf : Bool) : Str := join "::".toList (if includeSelf then e.scope ++ [e.name] else e.scope)

/-- `/repo/src/litgen/internal/adapted_types/adapted_enum.py:33-43` `decl_name_cpp_decorated` -/
def decorated (e : EnumDecl) (m : Member) : Str :=
  let scope := scopeStr e e.isClass
  if scope.length > 0 then scope ++ "::".toList ++ m.name else m.name

/-- `/repo/src/litgen/internal/adapted_types/adapted_enum.py:156-160` `pydef_lines` of a member. -/
def memberLine (o : Options) (e : EnumDecl) (m : Member) : Option Str :=
  (Keyword.memberName o.names e.isClass e.name m.name).map fun py =>
    ".value(\"".toList ++ py ++ "\", ".toList ++ decorated e m ++ ", \"".toList ++ m.comment ++ "\")".toList

/-- `/repo/src/litgen/internal/adapted_types/adapted_enum.py:249-257`: the variable `enum_annotation` is assigned only when the enumeration is
arithmetic; `none` is the `UnboundLocalError` raised at line 262 otherwise. -/
def annotation (o : Options) (cppName : Str) : Option Str :=
  if o.arithmetic cppName then
    if o.pybind then some ", py::arithmetic()".toList
    else if o.flag cppName then some ", nb::is_arithmetic(), nb::is_flag()".toList
    else some ", nb::is_arithmetic()".toList
  else none

/-- `/repo/src/litgen/internal/adapted_types/adapted_enum.py:258-266`: the first two lines. -/
def titleLines (o : Options) (e : EnumDecl) (annot : Str) : List Str :=
  let py := Keyword.enumName o.names e.name
  let lib := if o.pybind then "py".toList else "nb".toList
  ["auto pyEnum".toList ++ py ++ " = ".toList,
   lib ++ "::enum_<".toList ++ scopeStr e true ++ ">(".toList ++ e.parentVar ++ ", \"".toList ++ py ++ "\"".toList ++ annot ++ ", \"".toList ++
     e.comment ++ "\")".toList ++ e.location]

/-- `lines[-1] = add_item_before_cpp_comment(lines[-1], ";")`, `/repo/src/litgen/internal/adapted_types/adapted_enum.py:281-284` -/
def endStatement (ls : List Str) : List Str :=
  match ls.getLast? with
  | none => ls
  | some last => ls.dropLast ++ [Comment.addItemBeforeCppComment last ";".toList]

/-- `/repo/src/litgen/internal/adapted_types/adapted_enum.py:241-290` `pydef_lines`. `none` is an exception. -/
def pydefLines (o : Options) (e : EnumDecl) : Option (List Str) :=
  match annotation o (scopeStr e true), (kept o e).mapM (memberLine o e) with
  | some annot, some children =>
    let ls := titleLines o e annot ++ Indent.indentCodeLines children 1 false (some o.indent) ++
      (if o.exportValues then [".export_values()".toList] else [])
    some (Indent.indentCodeLines (endStatement ls) 1 true (some o.indent))
  | _, _ => none

/-- `/repo/src/litgen/internal/adapted_types/adapted_enum.py:216-224`: the title of the stub. -/
def stubTitle (o : Options) (e : EnumDecl) : Str :=
  let cppName := scopeStr e true
  let parent := if o.arithmetic cppName && o.flag cppName then "enum.IntFlag".toList
    else if o.arithmetic cppName then "enum.IntEnum".toList
    else if o.flag cppName then "enum.Flag".toList
    else "enum.Enum".toList
  "class ".toList ++ Keyword.enumName o.names e.name ++ "(".toList ++ parent ++ "):".toList

/-- `/repo/src/litgen/internal/adapted_types/adapted_enum.py:138-141`: the declarations of the members in the stub (`value` gives the text of
their values). Not modelled: the comments, the blank lines and the alignment around them. -/
def stubDecls (o : Options) (e : EnumDecl) (value : Member → Str) : Option (List Str) :=
  (kept o e).mapM fun m => (Keyword.memberName o.names e.isClass e.name m.name).map fun py =>
    py ++ " = enum.auto() # (= ".toList ++ value m ++ ")".toList

end Verif.Enums
