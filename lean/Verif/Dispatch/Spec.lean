import Verif.Dispatch.Model
import Verif.Template.Spec

/-! Specification of the text that calls a function template with buffers. -/

namespace Verif.Dispatch.Spec
open Verif.Py Verif.Dispatch

/-- The names of the arrays of the template. -/
def arrays (ps : List Param) : List Str := (ps.filter (fun p => p.template)).map (fun p => p.name)

/-- The test of an element type and the call for it. -/
def branch (first : Bool) (indent buffer code : Str) (isVoid : Bool) (call args : Str) : Str :=
  (if first then [] else "else ".toList) ++ ("if (".toList ++ (buffer ++ ("_type == '".toList ++ (code ++ ("')\n".toList ++ (indent ++
    ((if isVoid then [] else "return ".toList) ++ (call ++ ("(".toList ++ (args ++ ");\n".toList))))))))))

/-- An argument of the call: the data of an array of elements of the type, or another text. -/
def argument (type : Str) (p : Param) : Str :=
  if p.template then
    "static_cast<".toList ++ ((if p.const then "const ".toList else []) ++ (type ++ (" *>(".toList ++ (p.name ++ "_from_pyarray)".toList))))
  else p.inner

/-- What is done with other element types. -/
def final (indent buffer : Str) : Str :=
  "// If we reach this point, the array type is not supported!\nelse\n".toList ++ (indent ++ (
  "throw std::runtime_error(std::string(\"Bad array type ('\") + ".toList ++ (buffer ++ ("_type + \"') for param ".toList ++ (buffer ++
  "\");".toList)))))

/-- The beginning with pybind11: the letter of the element type is asked to the array. -/
def introPybind (buffer : Str) : Str :=
  "#ifdef _WIN32\nusing np_uint_l = uint32_t;\nusing np_int_l = int32_t;\n#else\n".toList ++ (
  "using np_uint_l = uint64_t;\nusing np_int_l = int64_t;\n#endif\n".toList ++ (
  "// call the correct template version by casting\nchar ".toList ++ (buffer ++ ("_type = ".toList ++ (buffer ++ ".dtype().char_();".toList)))))

/-- The beginning with nanobind: the table of the letters, for each kind and size of elements. -/
def nanobindHead : Str :=
  "using np_uint_l = uint64_t;\nusing np_int_l = int64_t;\n\n".toList ++ (
  "// Define a lambda to compute the letter code for the buffer type\n".toList ++ (
  "auto _nanobind_buffer_type_to_letter_code = [](uint8_t dtype_code, size_t sizeof_item)  -> char\n".toList ++ (
  "{\n    #define DCODE(T) static_cast<uint8_t>(nb::dlpack::dtype_code::T)\n".toList ++ (
  "        const std::array<std::tuple<uint8_t, size_t, char>, 11> mappings = {{\n".toList ++ (
  "            {DCODE(UInt), 1, 'B'}, {DCODE(UInt), 2, 'H'}, {DCODE(UInt), 4, 'I'}, {DCODE(UInt), 8, 'L'},\n".toList ++ (
  "            {DCODE(Int), 1, 'b'}, {DCODE(Int), 2, 'h'}, {DCODE(Int), 4, 'i'}, {DCODE(Int), 8, 'l'},\n".toList ++ (
  "            {DCODE(Float), 4, 'f'}, {DCODE(Float), 8, 'd'}, {DCODE(Float), 16, 'g'}\n".toList ++ (
  "        }};\n    #undef DCODE\n    for (const auto& [code_val, size, letter] : mappings)\n".toList ++ (
  "        if (code_val == dtype_code && size == sizeof_item)\n            return letter;\n".toList ++ (
  "    throw std::runtime_error(\"Unsupported dtype\");\n};\n\n".toList ++
  "// Compute the letter code for the buffer type\nuint8_t dtype_code_".toList))))))))))

/-- With nanobind, the letter is computed from the kind and the size of the elements. -/
def introNanobind (buffer : Str) : Str :=
  nanobindHead ++ (
  buffer ++ (" = ".toList ++ (buffer ++ (".dtype().code;\nsize_t sizeof_item_".toList ++ (buffer ++ (" = ".toList ++ (buffer ++ (
  ".dtype().bits / 8;\nchar ".toList ++ (buffer ++ ("_type = _nanobind_buffer_type_to_letter_code(dtype_code_".toList ++ (buffer ++ (
  ", sizeof_item_".toList ++ (buffer ++ ");\n\n// call the correct template version by casting".toList)))))))))))))

/-- The names of the element types for the messages, with pybind11. -/
def namesPybind : Str :=
  "// Map a numpy dtype char code to a human-readable name (used in the error message below)\n".toList ++ (
  "auto _pybind_dtype_letter_to_name = [](char letter) -> const char *\n{\n    switch (letter)\n".toList ++ (
  "    {\n        case 'B': return \"uint8\";            case 'b': return \"int8\";\n".toList ++ (
  "        case 'H': return \"uint16\";           case 'h': return \"int16\";\n".toList ++ (
  "        case 'I': return \"uint32\";           case 'i': return \"int32\";\n".toList ++ (
  "        case 'L': case 'Q': return \"uint64\"; case 'l': case 'q': return \"int64\";\n".toList ++ (
  "        case 'f': return \"float32\";          case 'd': return \"float64\";\n".toList ++ (
  "        case 'g': return \"longdouble\";\n        default:  return \"<unsupported>\";\n    }\n".toList ++ "};\n".toList)))))))

/-- The names of the element types for the messages, with nanobind. -/
def namesNanobind : Str :=
  "// Map a dtype letter code to a human-readable numpy dtype name (used in the error message below)\n".toList ++ (
  "auto _nanobind_dtype_letter_to_name = [](char letter) -> const char *\n{\n".toList ++ (
  "    switch (letter)\n    {\n        case 'B': return \"uint8\";   case 'b': return \"int8\";\n".toList ++ (
  "        case 'H': return \"uint16\";  case 'h': return \"int16\";\n".toList ++ (
  "        case 'I': return \"uint32\";  case 'i': return \"int32\";\n".toList ++ (
  "        case 'L': return \"uint64\";  case 'l': return \"int64\";\n".toList ++ (
  "        case 'f': return \"float32\"; case 'd': return \"float64\";\n".toList ++ (
  "        case 'g': return \"longdouble\";\n        default:  return \"<unsupported>\";\n    }\n".toList ++ "};\n".toList)))))))

/-- Another array must have elements of the same type, with pybind11. -/
def checkPybind (indent buffer pythonName other : Str) : Str :=
  "// Ensure '".toList ++ (other ++ ("' shares the dtype of '".toList ++ (buffer ++ (
  "' (the C++ function is templated on a single type)\nchar ".toList ++ (other ++ ("_type = ".toList ++ (other ++ (
  ".dtype().char_();\nif (".toList ++ (other ++ ("_type != ".toList ++ (buffer ++ ("_type)\n".toList ++ (indent ++ (
  "throw std::runtime_error(\n".toList ++ (indent ++ (indent ++ ("std::string(\"".toList ++ (pythonName ++ (
  ": all numeric arrays must share the same dtype, \")\n".toList ++ (indent ++ (indent ++ ("+ \"but \\\"".toList ++ (other ++ (
  "\\\" has dtype \" + _pybind_dtype_letter_to_name(".toList ++ (other ++ ("_type)\n".toList ++ (indent ++ (indent ++ (
  "+ \" while \\\"".toList ++ (buffer ++ ("\\\" has dtype \" + _pybind_dtype_letter_to_name(".toList ++ (buffer ++ ("_type)\n".toList ++ (
  indent ++ (indent ++ ("+ \". Convert them to a common dtype, e.g. ".toList ++ (other ++ (" = ".toList ++ (other ++ (".astype(".toList ++ (
  buffer ++ ".dtype).\");\n".toList)))))))))))))))))))))))))))))))))))))))))

/-- Another array must have elements of the same type, with nanobind. -/
def checkNanobind (indent buffer pythonName other : Str) : Str :=
  "// Ensure '".toList ++ (other ++ ("' shares the dtype of '".toList ++ (buffer ++ (
  "' (the C++ function is templated on a single type)\nchar ".toList ++ (other ++ (
  "_type = _nanobind_buffer_type_to_letter_code(".toList ++ (other ++ (".dtype().code, ".toList ++ (other ++ (
  ".dtype().bits / 8);\nif (".toList ++ (other ++ ("_type != ".toList ++ (buffer ++ ("_type)\n".toList ++ (indent ++ (
  "throw std::runtime_error(\n".toList ++ (indent ++ (indent ++ ("std::string(\"".toList ++ (pythonName ++ (
  ": all numeric arrays must share the same dtype, \")\n".toList ++ (indent ++ (indent ++ ("+ \"but \\\"".toList ++ (other ++ (
  "\\\" has dtype \" + _nanobind_dtype_letter_to_name(".toList ++ (other ++ ("_type)\n".toList ++ (indent ++ (indent ++ (
  "+ \" while \\\"".toList ++ (buffer ++ ("\\\" has dtype \" + _nanobind_dtype_letter_to_name(".toList ++ (buffer ++ ("_type)\n".toList ++ (
  indent ++ (indent ++ ("+ \". Convert them to a common dtype, e.g. ".toList ++ (other ++ (" = ".toList ++ (other ++ (".astype(".toList ++ (
  buffer ++ ".dtype).\");\n".toList)))))))))))))))))))))))))))))))))))))))))))

/-- The characters of the names in the templates. -/
def nameChar (c : Char) : Bool := c.isLower || c == '_'

/-- A text without opening brace before such a character. -/
def Plain (s : Str) : Prop := Template.Spec.PlainText nameChar s

/-- The texts that are inserted contain no `{` before a small letter or `_`. -/
def Quiet (e : Env) : Prop := Plain e.indent ∧ Plain e.call ∧ Plain e.pythonName ∧ ∀ p ∈ e.params, Plain p.name ∧ Plain p.inner

/-- The checks of the other arrays. -/
def checksText (e : Env) (buffer : Str) (others : List Str) : Str :=
  if others = [] then []
  else (if e.nanobind then namesNanobind else namesPybind) ++ others.flatMap (fun n =>
    if e.nanobind then checkNanobind e.indent buffer e.pythonName n else checkPybind e.indent buffer e.pythonName n)

end Verif.Dispatch.Spec
