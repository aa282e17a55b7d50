import Verif.Py.Str
import Verif.Indent.Model

/-! Model of `/repo/src/litgen/internal/boxed_python_type.py` and of the code of the boxed types in
`/repo/src/litgen/litgen_generator.py`. -/

namespace Verif.Boxed
open Verif.Py

/-- `/repo/src/litgen/internal/cpp_to_python.py:353-374` `CPP_PYTHON_NUMERIC_INT_SYNONYMS` (the C++ types) -/
def intTypes : List Str :=
  ["int".toList, "unsigned int".toList, "signed int".toList, "long".toList, "unsigned long".toList, "signed long".toList,
   "long long".toList, "unsigned long long".toList, "signed long long".toList, "uint8_t".toList, "int8_t".toList, "uint16_t".toList,
   "int16_t".toList, "uint32_t".toList, "int32_t".toList, "uint64_t".toList, "int64_t".toList, "size_t".toList, "ssize_t".toList,
   "std::size_t".toList]

/-- `/repo/src/litgen/internal/cpp_to_python.py:376-380` `CPP_PYTHON_NUMERIC_FLOAT_SYNONYMS` (the C++ types) -/
def floatTypes : List Str := ["float".toList, "double".toList, "long double".toList]

/-- `/repo/src/litgen/internal/cpp_to_python.py:386-390` `cpp_numeric_types` -/
def numericTypes : List Str := intTypes ++ floatTypes

/-- `/repo/src/litgen/internal/cpp_to_python.py:393-399` `is_cpp_type_immutable_for_python` and
`/repo/src/litgen/internal/boxed_python_type.py:8-10` `_can_box_cpp_type` -/
def canBox (t : Str) : Bool :=
  if t ∈ numericTypes then true
  else if t ∈ ["string".toList, "std::string".toList, "bool".toList] then true
  else false

/-- `/repo/src/litgen/internal/cpp_to_python.py:886-898` `cpp_type_default_python_value` -/
def defaultValue (t : Str) : Option Str :=
  if t ∈ intTypes then some "0".toList
  else if t ∈ floatTypes then some "0.".toList
  else if t ∈ ["std::string".toList, "string".toList] then some "\"\"".toList
  else if t ∈ ["bool".toList] then some "false".toList
  else none

/-- `str.upper` of one character (exact for ASCII characters). -/
def upper (c : Char) : Char := if 'a' ≤ c ∧ c ≤ 'z' then Char.ofNat (c.toNat - 32) else c

/-- `capitalize_first_letter`, `/repo/src/litgen/internal/cpp_to_python.py:338-339`; `none` is an IndexError. -/
def capitalizeFirst : Str → Option Str
  | [] => none
  | c :: s => some (upper c :: s)

/-- `/repo/src/litgen/internal/cpp_to_python.py:335-344` `cpp_type_to_camel_case_no_space` -/
def camelCaseNoSpace (t : Str) : Option Str := ((splitOn ' ' t).mapM capitalizeFirst).map List.flatten

/-- `/repo/src/litgen/internal/boxed_python_type.py:13-18` `boxed_type_name`; `none` is an AssertionError. -/
def boxedTypeName (t : Str) : Option Str :=
  if !canBox t then none
  else
    let t := if t = "std::string".toList then "string".toList else t
    (camelCaseNoSpace t).map (fun n => "Boxed".toList ++ n)

/-- `/repo/src/litgen/internal/boxed_python_type.py:34-36` -/
def toStringValue (t : Str) : Str :=
  if t ∈ ["string".toList, "std::string".toList] then "value".toList else "std::to_string(value)".toList

/-- The lines of the f-string of `/repo/src/litgen/internal/boxed_python_type.py:38-45`, with the indentation of the Python source. -/
def structTemplate (t name value indent : Str) : List Str :=
  [[],
   spaces 8 ++ ("struct ".toList ++ name),
   spaces 8 ++ "{".toList,
   spaces 8 ++ (indent ++ t ++ " value;".toList),
   spaces 8 ++ (indent ++ name ++ "(".toList ++ t ++ " v = ".toList ++ value ++ ") : value(v) {}".toList),
   spaces 8 ++ (indent ++ "std::string __repr__() const { return std::string(\"".toList ++ name ++ "(\") + ".toList ++ toStringValue t ++
     " + \")\"; }".toList),
   spaces 8 ++ "};".toList,
   spaces 4]

/-- `/repo/src/litgen/internal/boxed_python_type.py:26-47` `boxed_type_cpp_struct_code`; `none` is an AssertionError. -/
def structCode (t indent : Str) : Option Str :=
  match canBox t, defaultValue t, boxedTypeName t with
  | true, some value, some name => some (Indent.unindentCode (unlines (structTemplate t name value indent)) true ++ "\n".toList)
  | _, _, _ => none

/-- `set.add` on a list without duplicates. -/
def setAdd (s : List Str) (t : Str) : List Str := if t ∈ s then s else s ++ [t]

/-- `/repo/src/litgen/internal/boxed_python_type.py:21-23` `registered_boxed_type_name`: the name, and the set of the context after the
call (`encountered_cpp_boxed_types`, which only grows). -/
def registered (s : List Str) (t : Str) : Option Str × List Str := (boxedTypeName t, setAdd s t)

/-- `a <= b` for Python strings: lexicographic, by code points. -/
def strLe : Str → Str → Bool
  | [], _ => true
  | _ :: _, [] => false
  | a :: as, b :: bs => if a = b then strLe as bs else decide (a.toNat < b.toNat)

def insertSorted (t : Str) : List Str → List Str
  | [] => [t]
  | u :: us => if strLe t u then t :: u :: us else u :: insertSorted t us

/-- `sorted(...)` (for strings, equal elements are the same, so every sorting algorithm gives the same list) -/
def sorted : List Str → List Str
  | [] => []
  | t :: ts => insertSorted t (sorted ts)

/-- `/repo/src/litgen/litgen_generator.py:179-185` `_boxed_types_cpp_code` -/
def boxedTypesCode (s : List Str) (indent : Str) : Option Str :=
  ((sorted s).mapM (fun t => structCode t indent)).map List.flatten

/-- The set of the context after some registrations. -/
def afterRegistrations (ts : List Str) : List Str := ts.foldl (fun s t => (registered s t).2) []

end Verif.Boxed
