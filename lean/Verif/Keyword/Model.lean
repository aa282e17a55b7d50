import Verif.Name.Model
import Verif.Repl.Model

/-! Model of the translation of names, `/repo/src/litgen/internal/cpp_to_python.py:198-246`, and of the names of enum
members, `/repo/src/litgen/internal/adapted_types/adapted_enum.py:45-92`. -/

namespace Verif.Keyword
open Verif.Py Verif.Name Verif.Repl

/-- `keyword.kwlist` of Python 3 (part of the trusted base). -/
def kwlist : List Str :=
  ["False", "None", "True", "and", "as", "assert", "async", "await", "break", "class", "continue", "def", "del", "elif",
   "else", "except", "finally", "for", "from", "global", "if", "import", "in", "is", "lambda", "nonlocal", "not", "or",
   "pass", "raise", "return", "try", "while", "with", "yield"].map String.toList

/-- The parts of `/repo/src/litgen/options.py` that are read here; `sub` is the regular expression engine. -/
structure Options where
  sub : Engine
  types : List Replacement
  functions : List Replacement
  vars : List Replacement
  namespaces : List Replacement
  /-- `python_convert_to_snake_case` -/
  snake : Bool
  /-- `enum_flag_remove_values_prefix` -/
  removePrefix : Bool
  /-- `enum_flag_remove_values_prefix_group_private` -/
  groupPrivate : Bool

/-- `/repo/src/litgen/internal/cpp_to_python.py:198-201` `add_underscore_if_python_reserved_word` -/
def escape (name : Str) : Str := if name ∈ kwlist then name ++ ['_'] else name

/-- `/repo/src/litgen/internal/cpp_to_python.py:204-207` `_class_name_to_python` -/
def className (o : Options) (name : Str) : Str := escape (apply o.sub o.types name)

/-- `/repo/src/litgen/internal/cpp_to_python.py:210-213` `enum_name_to_python` -/
def enumName (o : Options) (name : Str) : Str := escape (apply o.sub o.types name)

/-- `/repo/src/litgen/internal/cpp_to_python.py:218-222`, the same lines in the three functions below. -/
def convert (o : Options) (name : Str) : Str := if o.snake then escape (toSnakeCase name) else escape name

/-- `/repo/src/litgen/internal/cpp_to_python.py:216-224` `function_name_to_python` -/
def functionName (o : Options) (name : Str) : Str :=
  apply o.sub o.functions (convert o (apply o.sub o.functions name))

/-- `/repo/src/litgen/internal/cpp_to_python.py:227-235` `namespace_name_to_python` -/
def namespaceName (o : Options) (name : Str) : Str :=
  apply o.sub o.vars (convert o (apply o.sub o.namespaces name))

/-- `/repo/src/litgen/internal/cpp_to_python.py:238-246` `var_name_to_python` -/
def varName (o : Options) (name : Str) : Str :=
  apply o.sub o.vars (convert o (apply o.sub o.vars name))

/-- `str.upper`, for ASCII. -/
def upper (s : Str) : Str := s.map upC

/-- `/repo/src/litgen/internal/adapted_types/adapted_enum.py:53-59`
`remove_case_insensitive_prefix_with_possible_underscore` -/
def dropPrefix (name pre : Str) : Str :=
  if startsWith (upper name) (upper pre ++ ['_']) then name.drop (pre.length + 1)
  else if startsWith (upper name) (upper pre) then name.drop pre.length
  else name

/-- `/repo/src/litgen/internal/adapted_types/adapted_enum.py:70-80` -/
def dropPrivate (o : Options) (enum name : Str) : Str :=
  if o.groupPrivate then
    if endsWith enum "Private_".toList then dropPrefix name (enum.take (enum.length - 8))
    else if endsWith enum "Private".toList then dropPrefix name (enum.take (enum.length - 7))
    else name
  else name

/-- `/repo/src/litgen/internal/adapted_types/adapted_enum.py:84-87`. `str.isdigit` is restricted to ASCII digits.
`none` is the `IndexError` for an empty name. -/
def repairName (value name : Str) : Option Str :=
  match (if name.length = 0 then value else name) with
  | [] => none
  | c :: cs => some (if isDig c then '_' :: c :: cs else c :: cs)

/-- `/repo/src/litgen/internal/adapted_types/adapted_enum.py:45-87` `_decl_name_cpp_without_enum_prefix` -/
def withoutPrefix (o : Options) (isClass : Bool) (enum value : Str) : Option Str :=
  if !o.removePrefix || isClass then some value
  else repairName value (dropPrivate o enum (dropPrefix value enum))

/-- `/repo/src/litgen/internal/adapted_types/adapted_enum.py:89-92` `decl_name_python` -/
def memberName (o : Options) (isClass : Bool) (enum value : Str) : Option Str :=
  (withoutPrefix o isClass enum value).map (varName o)

end Verif.Keyword
