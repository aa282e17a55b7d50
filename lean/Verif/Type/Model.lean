import Verif.Py.StrLemmas

/-! Model of the printing of types (`/repo/src/srcmlcpp/cpp_types/decls_types/cpp_type.py`). -/

namespace Verif.Type
open Verif.Py

/-- `/repo/src/srcmlcpp/cpp_types/decls_types/cpp_type.py:37-52`: a type as srcML sees it. -/
structure CppType where
  specifiers : List Str
  typenames : List Str
  modifiers : List Str
deriving DecidableEq

/-- `/repo/src/codemanip/code_utils.py:663-666` `join_remove_empty` -/
def joinRemoveEmpty (sep : Str) (strs : List Str) : Str := join sep (strs.filter (fun s => s.length > 0))

def const_ : Str := "const".toList
def blank : Str := [' ']

/-- `/repo/src/srcmlcpp/cpp_types/decls_types/cpp_type.py:108-113`: the specifiers without the last `const` if
there are two. -/
def printedSpecifiers (specifiers : List Str) : List Str :=
  if specifiers.count const_ = 2 then (specifiers.reverse.erase const_).reverse else specifiers

/-- `/repo/src/srcmlcpp/cpp_types/decls_types/cpp_type.py:124-125` -/
def finalConst (specifiers : List Str) : Str :=
  if specifiers.count const_ = 2 then " const".toList else []

/-- `/repo/src/srcmlcpp/cpp_types/decls_types/cpp_type.py:102-127` `str_code`; `none` is the `ValueError`. -/
def strCode (t : CppType) : Option Str :=
  if t.specifiers.count const_ > 2 then none
  else some (joinRemoveEmpty blank
    [joinRemoveEmpty blank (printedSpecifiers t.specifiers), join blank t.typenames, joinRemoveEmpty blank t.modifiers]
    ++ finalConst t.specifiers)

/-- `/repo/src/srcmlcpp/cpp_types/decls_types/cpp_type.py:75` -/
def unwanted : List Str := ["inline".toList, "virtual".toList, "extern".toList, "static".toList]

/-- `/repo/src/srcmlcpp/cpp_types/decls_types/cpp_type.py:74-78` -/
def wantedSpecifiers (specifiers : List Str) : List Str :=
  unwanted.foldl (fun r u => if u ∈ specifiers then r.erase u else r) specifiers

/-- `/repo/src/srcmlcpp/cpp_types/decls_types/cpp_type.py:85-89` -/
def returnName (typenames : List Str) : Str :=
  match typenames with
  | t :: u :: r => if t = "auto".toList then join blank (u :: r) else join blank (t :: u :: r)
  | l => join blank l

/-- `/repo/src/srcmlcpp/cpp_types/decls_types/cpp_type.py:96-98`: the body of the loop on the prefixes. -/
def removePrefix (text pre : Str) : Str :=
  if startsWith text pre then lstrip (text.drop pre.length) else text

/-- `/repo/src/srcmlcpp/cpp_types/decls_types/cpp_type.py:70-100` `str_return_type`, given
`options.functions_api_prefixes_list()`; `none` is the `AssertionError`. -/
def strReturnType (prefixes : List Str) (removeApiPrefix : Bool) (t : CppType) : Option Str :=
  if t.specifiers.count const_ > 1 then none
  else
    let r := joinRemoveEmpty blank
      [joinRemoveEmpty blank (wantedSpecifiers t.specifiers), returnName t.typenames, joinRemoveEmpty blank t.modifiers]
    some (if removeApiPrefix then prefixes.foldl removePrefix r else r)

end Verif.Type
