import Verif.Py.Str

/-! Model of the tables of numeric array types, `/repo/src/litgen/internal/cpp_to_python.py:410-515`, and of the lists of
buffer types of `/repo/src/litgen/options.py`. -/

namespace Verif.Arr
open Verif.Py

/-- `/repo/src/litgen/internal/cpp_to_python.py:410-423` `_PY_ARRAY_TYPE_TO_CPP_TYPE` -/
def table : List (Str × Str) :=
  [("B", "uint8_t"), ("b", "int8_t"), ("H", "uint16_t"), ("h", "int16_t"), ("I", "uint32_t"), ("i", "int32_t"),
   ("L", "np_uint_l"), ("l", "np_int_l"), ("f", "float"), ("d", "double"), ("g", "long double"),
   ("q", "long long")].map (fun x => (x.1.toList, x.2.toList))

/-- `/repo/src/litgen/internal/cpp_to_python.py:426-430` `py_array_types` -/
def arrayTypes : List Str := table.map (·.1)

/-- `/repo/src/litgen/internal/cpp_to_python.py:433-436` `py_array_type_to_cpp_type`; `none` is a failed assertion. -/
def toCpp (code : Str) : Option Str :=
  if code.length = 1 then (table.find? (fun x => x.1 = code)).map (·.2) else none

/-- `"const "` -/
def constBlank : Str := "const ".toList

/-- `/repo/src/litgen/internal/cpp_to_python.py:508-509` -/
def dropStar (s : Str) : Str := if endsWith s ['*'] then strip s.dropLast else s

/-- `/repo/src/litgen/internal/cpp_to_python.py:510-511` -/
def dropConst (s : Str) : Str := if startsWith s constBlank then strip (replace s constBlank []) else s

/-- `/repo/src/litgen/internal/cpp_to_python.py:506-515` `cpp_type_to_py_array_type`; `none` is `ValueError`. -/
def toCode (cppType : Str) : Option Str :=
  (table.find? (fun x => x.2 = dropConst (dropStar (strip cppType)))).map (·.1)

/-- `/repo/src/litgen/internal/cpp_to_python.py:442-466` `_NANOBIND_CPP_TYPE_TO_DTYPE_CODE` -/
def nanobindTable : List (Str × Str) :=
  [("uint8_t", "UInt"), ("int8_t", "Int"), ("uint16_t", "UInt"), ("int16_t", "Int"), ("uint32_t", "UInt"),
   ("int32_t", "Int"), ("uint64_t", "UInt"), ("int64_t", "Int"), ("int", "Int"), ("signed int", "Int"),
   ("unsigned int", "UInt"), ("long", "Int"), ("signed long", "Int"), ("unsigned long", "UInt"), ("long long", "Int"),
   ("signed long long", "Int"), ("unsigned long long", "UInt"), ("float", "Float"), ("double", "Float"),
   ("long double", "Float")].map (fun x => (x.1.toList, x.2.toList))

/-- `/repo/src/litgen/internal/cpp_to_python.py:476-480` `nanobind_cpp_type_to_dtype_code`; `none` is `ValueError`. -/
def nanobindCode (cppType : Str) : Option Str := (nanobindTable.find? (fun x => x.1 = cppType)).map (·.2)

/-- `/repo/src/litgen/internal/cpp_to_python.py:469-473` `nanobind_cpp_type_to_dtype_code_as_uint8` -/
def nanobindCodeText (cppType : Str) : Option Str :=
  (nanobindCode cppType).map (fun c => "static_cast<uint8_t>(nb::dlpack::dtype_code::".toList ++ c ++ ")".toList)

/-- `/repo/src/litgen/options.py:288-303`: the default value of `fn_params_buffer_types`, as a list. -/
def defaultBufferTypes : List Str :=
  ["uint8_t", "int8_t", "uint16_t", "int16_t", "uint32_t", "int32_t", "np_uint_l", "np_int_l", "float", "double",
   "long double", "long long"].map String.toList

/-- `/repo/src/litgen/options.py:690-704`: the types that the options may contain. -/
def authorizedTypes : List Str :=
  ["byte", "uint8_t", "int8_t", "uint16_t", "int16_t", "uint32_t", "int32_t", "np_uint_l", "np_int_l", "float", "double",
   "long double", "long long"].map String.toList

end Verif.Arr
