import Verif.Num.Model

/-! Model of the C arrays of the declarations: how they are found in the name of a declaration
(`/repo/src/srcmlcpp/internal/cpp_types_parse.py:316-323`), and their size (`/repo/src/srcmlcpp/cpp_types/decls_types/cpp_decl.py:159-238`).
The macros of the file are those of `Verif/Num`. -/

namespace Verif.CArray
open Verif.Py Verif.Num

/-- The part of `CppDecl` that is used here (`/repo/src/srcmlcpp/cpp_types/decls_types/cpp_decl.py:47-56`). -/
structure Decl where
  name : Str
  arrayCode : Str
deriving DecidableEq

/-- `/repo/src/srcmlcpp/internal/cpp_types_parse.py:316-323`: the name and the array in the text of a name. -/
def parseName (text : Str) : Decl :=
  if text.contains '[' && endsWith text [']'] then ⟨text.takeWhile (· ≠ '['), text.dropWhile (· ≠ '[')⟩
  else ⟨text, []⟩

/-- `/repo/src/srcmlcpp/cpp_types/decls_types/cpp_decl.py:159-166` `is_c_array` -/
def isArray (d : Decl) : Bool := decide (d.arrayCode.length > 0)

/-- `/repo/src/srcmlcpp/cpp_types/decls_types/cpp_decl.py:168-178` `c_array_size_as_str`. The code of an array has a `[`: the error of
`index` is left out. -/
def sizeStr (d : Decl) : Option Str :=
  if !isArray d then none else some ((d.arrayCode.dropWhile (· ≠ '[')).drop 1).dropLast

/-- An element that contains the declaration: the file with its definitions, or another one. -/
inductive Ancestor
  | unit (defines : List Define)
  | other
deriving DecidableEq

/-- `/repo/src/srcmlcpp/cpp_types/decls_types/cpp_decl.py:198-208` `_int_from_unit_defines`, with the elements around the declaration
from the nearest one (there is none when the attribute `parent` is missing). -/
def fromUnit (macros : Str → Option Int) : List Ancestor → Str → Option Int
  | [], _ => none
  | .unit defines :: _, s => (intValueFromDefineName macros (defines.length + 1) defines s).getD none
  | .other :: as, s => fromUnit macros as s

/-- `/repo/src/srcmlcpp/srcmlcpp_options.py:118-129` `_int_from_str_or_named_number_macros` -/
def fromStrOrMacros (macros : Str → Option Int) (s : Option Str) : Option Int :=
  match s with
  | none => none
  | some s =>
    match pyInt 10 s with
    | some v => some v
    | none => macros s

/-- `/repo/src/srcmlcpp/cpp_types/decls_types/cpp_decl.py:180-196` `c_array_size_as_int` -/
def sizeInt (macros : Str → Option Int) (around : List Ancestor) (d : Decl) : Option Int :=
  match fromStrOrMacros macros (sizeStr d), sizeStr d with
  | some v, _ => some v
  | none, some s => if (strip s).length > 0 then fromUnit macros around s else none
  | none, none => none

/-- `/repo/src/srcmlcpp/cpp_types/decls_types/cpp_decl.py:210-214` `is_c_array_known_fixed_size` -/
def known (macros : Str → Option Int) (around : List Ancestor) (d : Decl) : Bool := (sizeInt macros around d).isSome

/-- `/repo/src/srcmlcpp/cpp_types/decls_types/cpp_decl.py:216-226` `is_c_array_no_size` -/
def noSize (d : Decl) : Bool :=
  if !isArray d then false
  else match sizeStr d with
    | none => false
    | some s => !decide ((strip s).length > 0)

/-- `/repo/src/srcmlcpp/cpp_types/decls_types/cpp_decl.py:228-238` `is_c_array_fixed_size_unparsable` -/
def unparsable (macros : Str → Option Int) (around : List Ancestor) (d : Decl) : Bool :=
  if !isArray d then false
  else match sizeStr d with
    | none => false
    | some s => decide ((strip s).length > 0) && (sizeInt macros around d).isNone

end Verif.CArray
