import Verif.Arr.Model
import Verif.Template.Model
import Verif.Indent.Model

/-! Model of the text that calls a function template with buffers, one call for each element type:
`/repo/src/litgen/internal/adapt_function_params/_adapt_c_buffers.py:229-466`. -/

namespace Verif.Dispatch
open Verif.Py Verif.Template

/-- A parameter: its name, whether it looks like a template buffer (`_looks_like_param_template_buffer`), whether it is constant (`_is_const`),
and the text of `adapted_inner_param`. -/
structure Param where
  name : Str
  template : Bool
  const : Bool
  inner : Str
deriving DecidableEq

/-- What the text depends on: the library, the indentation, the list of `fn_params_buffer_types`, the text of the function or lambda to call,
whether the function returns nothing, its Python name, and its parameters. -/
structure Env where
  nanobind : Bool
  indent : Str
  types : List Str
  call : Str
  isVoid : Bool
  pythonName : Str
  params : List Param

/-- `"_i_"` -/
def kIndent : Str := "_i_".toList
/-- `"template_buffer_name"` -/
def kBuffer : Str := "template_buffer_name".toList
/-- `"maybe_else"` -/
def kElse : Str := "maybe_else".toList
/-- `"pyarray_type_char"` -/
def kChar : Str := "pyarray_type_char".toList
/-- `"maybe_return"` -/
def kReturn : Str := "maybe_return".toList
/-- `"function_or_lambda_to_call"` -/
def kCall : Str := "function_or_lambda_to_call".toList
/-- `"adapted_cpp_parameters_with_static_cast"` -/
def kArgs : Str := "adapted_cpp_parameters_with_static_cast".toList
/-- `"buffer_name"` -/
def kOther : Str := "buffer_name".toList
/-- `"function_name_python"` -/
def kFunction : Str := "function_name_python".toList

/-- `/repo/src/litgen/internal/adapt_function_params/_adapt_c_buffers.py:246-256` -/
def introPybind : Str := unlines ([
   "",
   "                #ifdef _WIN32",
   "                using np_uint_l = uint32_t;",
   "                using np_int_l = int32_t;",
   "                #else",
   "                using np_uint_l = uint64_t;",
   "                using np_int_l = int64_t;",
   "                #endif",
   "                // call the correct template version by casting",
   "                char {template_buffer_name}_type = {template_buffer_name}.dtype().char_();",
   "            "].map String.toList)

/-- `/repo/src/litgen/internal/adapt_function_params/_adapt_c_buffers.py:259-286` -/
def introNanobind : Str := unlines ([
   "",
   "                using np_uint_l = uint64_t;",
   "                using np_int_l = int64_t;",
   "",
   "                // Define a lambda to compute the letter code for the buffer type",
   "                auto _nanobind_buffer_type_to_letter_code = [](uint8_t dtype_code, size_t sizeof_item)  -> char",
   "                {",
   "                    #define DCODE(T) static_cast<uint8_t>(nb::dlpack::dtype_code::T)",
   "                        const std::array<std::tuple<uint8_t, size_t, char>, 11> mappings = {{",
   "                            {DCODE(UInt), 1, 'B'}, {DCODE(UInt), 2, 'H'}, {DCODE(UInt), 4, 'I'}, {DCODE(UInt), 8, 'L'},",
   "                            {DCODE(Int), 1, 'b'}, {DCODE(Int), 2, 'h'}, {DCODE(Int), 4, 'i'}, {DCODE(Int), 8, 'l'},",
   "                            {DCODE(Float), 4, 'f'}, {DCODE(Float), 8, 'd'}, {DCODE(Float), 16, 'g'}",
   "                        }};",
   "                    #undef DCODE",
   "                    for (const auto& [code_val, size, letter] : mappings)",
   "                        if (code_val == dtype_code && size == sizeof_item)",
   "                            return letter;",
   "                    throw std::runtime_error(\"Unsupported dtype\");",
   "                };",
   "            ",
   "                // Compute the letter code for the buffer type",
   "                uint8_t dtype_code_{template_buffer_name} = {template_buffer_name}.dtype().code;",
   "                size_t sizeof_item_{template_buffer_name} = {template_buffer_name}.dtype().bits / 8;",
   "                char {template_buffer_name}_type = _nanobind_buffer_type_to_letter_code(dtype_code_{template_buffer_name}, sizeof_item_{template_buffer_name});",
   "",
   "                // call the correct template version by casting",
   "            "].map String.toList)

/-- `/repo/src/litgen/internal/adapt_function_params/_adapt_c_buffers.py:288-291` -/
def loopRaw : Str := unlines ([
   "",
   "            {maybe_else}if ({template_buffer_name}_type == '{pyarray_type_char}')",
   "            {_i_}{maybe_return}{function_or_lambda_to_call}({adapted_cpp_parameters_with_static_cast});",
   "        "].map String.toList)

/-- `/repo/src/litgen/internal/adapt_function_params/_adapt_c_buffers.py:293-297` -/
def outroRaw : Str := unlines ([
   "",
   "            // If we reach this point, the array type is not supported!",
   "            else",
   "            {_i_}throw std::runtime_error(std::string(\"Bad array type ('\") + {template_buffer_name}_type + \"') for param {template_buffer_name}\");",
   "        "].map String.toList)

/-- `/repo/src/litgen/internal/adapt_function_params/_adapt_c_buffers.py:306-321` -/
def namesNanobind : Str := unlines ([
   "",
   "                // Map a dtype letter code to a human-readable numpy dtype name (used in the error message below)",
   "                auto _nanobind_dtype_letter_to_name = [](char letter) -> const char *",
   "                {",
   "                    switch (letter)",
   "                    {",
   "                        case 'B': return \"uint8\";   case 'b': return \"int8\";",
   "                        case 'H': return \"uint16\";  case 'h': return \"int16\";",
   "                        case 'I': return \"uint32\";  case 'i': return \"int32\";",
   "                        case 'L': return \"uint64\";  case 'l': return \"int64\";",
   "                        case 'f': return \"float32\"; case 'd': return \"float64\";",
   "                        case 'g': return \"longdouble\";",
   "                        default:  return \"<unsupported>\";",
   "                    }",
   "                };",
   "            "].map String.toList)

/-- `/repo/src/litgen/internal/adapt_function_params/_adapt_c_buffers.py:322-331` -/
def checkNanobind : Str := unlines ([
   "",
   "                // Ensure '{buffer_name}' shares the dtype of '{template_buffer_name}' (the C++ function is templated on a single type)",
   "                char {buffer_name}_type = _nanobind_buffer_type_to_letter_code({buffer_name}.dtype().code, {buffer_name}.dtype().bits / 8);",
   "                if ({buffer_name}_type != {template_buffer_name}_type)",
   "                {_i_}throw std::runtime_error(",
   "                {_i_}{_i_}std::string(\"{function_name_python}: all numeric arrays must share the same dtype, \")",
   "                {_i_}{_i_}+ \"but \\\"{buffer_name}\\\" has dtype \" + _nanobind_dtype_letter_to_name({buffer_name}_type)",
   "                {_i_}{_i_}+ \" while \\\"{template_buffer_name}\\\" has dtype \" + _nanobind_dtype_letter_to_name({template_buffer_name}_type)",
   "                {_i_}{_i_}+ \". Convert them to a common dtype, e.g. {buffer_name} = {buffer_name}.astype({template_buffer_name}.dtype).\");",
   "            "].map String.toList)

/-- `/repo/src/litgen/internal/adapt_function_params/_adapt_c_buffers.py:333-348` -/
def namesPybind : Str := unlines ([
   "",
   "                // Map a numpy dtype char code to a human-readable name (used in the error message below)",
   "                auto _pybind_dtype_letter_to_name = [](char letter) -> const char *",
   "                {",
   "                    switch (letter)",
   "                    {",
   "                        case 'B': return \"uint8\";            case 'b': return \"int8\";",
   "                        case 'H': return \"uint16\";           case 'h': return \"int16\";",
   "                        case 'I': return \"uint32\";           case 'i': return \"int32\";",
   "                        case 'L': case 'Q': return \"uint64\"; case 'l': case 'q': return \"int64\";",
   "                        case 'f': return \"float32\";          case 'd': return \"float64\";",
   "                        case 'g': return \"longdouble\";",
   "                        default:  return \"<unsupported>\";",
   "                    }",
   "                };",
   "            "].map String.toList)

/-- `/repo/src/litgen/internal/adapt_function_params/_adapt_c_buffers.py:349-358` -/
def checkPybind : Str := unlines ([
   "",
   "                // Ensure '{buffer_name}' shares the dtype of '{template_buffer_name}' (the C++ function is templated on a single type)",
   "                char {buffer_name}_type = {buffer_name}.dtype().char_();",
   "                if ({buffer_name}_type != {template_buffer_name}_type)",
   "                {_i_}throw std::runtime_error(",
   "                {_i_}{_i_}std::string(\"{function_name_python}: all numeric arrays must share the same dtype, \")",
   "                {_i_}{_i_}+ \"but \\\"{buffer_name}\\\" has dtype \" + _pybind_dtype_letter_to_name({buffer_name}_type)",
   "                {_i_}{_i_}+ \" while \\\"{template_buffer_name}\\\" has dtype \" + _pybind_dtype_letter_to_name({template_buffer_name}_type)",
   "                {_i_}{_i_}+ \". Convert them to a common dtype, e.g. {buffer_name} = {buffer_name}.astype({template_buffer_name}.dtype).\");",
   "            "].map String.toList)

/-- `/repo/src/litgen/internal/adapt_function_params/_adapt_c_buffers.py:179-188` `_template_buffer_params` -/
def templateBuffers (ps : List Param) : List Str := (ps.filter (·.template)).map (·.name)

/-- `/repo/src/litgen/internal/adapt_function_params/_adapt_c_buffers.py:229-242` `_adapted_cpp_parameters_template_static_cast`; `none` is a
failed assertion. -/
def castArgs (ps : List Param) (char : Str) : Option Str :=
  (Arr.toCpp char).map (fun type => join ", ".toList (ps.map (fun p =>
    if p.template then
      "static_cast<".toList ++ (if p.const then "const ".toList ++ type else type) ++ " *>(".toList ++
        (p.name ++ "_from_pyarray".toList) ++ ")".toList
    else p.inner)))

/-- `/repo/src/litgen/internal/adapt_function_params/_adapt_c_buffers.py:424-450`: one iteration. -/
def loopStep (e : Env) (buffer type : Str) (i : Nat) : Option Str :=
  (Arr.toCode type).bind (fun char => (castArgs e.params char).map (fun args =>
    replaceInString (Indent.unindentCode loopRaw true ++ ['\n'])
      [(kIndent, e.indent), (kElse, if i = 0 then [] else "else ".toList), (kBuffer, buffer), (kChar, char),
       (kReturn, if e.isVoid then [] else "return ".toList), (kCall, e.call), (kArgs, args)]))

/-- `/repo/src/litgen/internal/adapt_function_params/_adapt_c_buffers.py:424-450`: the loop; `none` is the exception of a type without code. -/
def loopCode (e : Env) (buffer : Str) : List (Str × Nat) → Option Str
  | [] => some []
  | (type, i) :: r => (loopStep e buffer type i).bind (fun a => (loopCode e buffer r).map (fun b => a ++ b))

/-- `/repo/src/litgen/internal/adapt_function_params/_adapt_c_buffers.py:404-421`: the checks of the other buffers. -/
def checks (e : Env) (buffer : Str) : Str :=
  let others := (templateBuffers e.params).filter (fun n => decide (n ≠ buffer))
  if others.length > 0 then
    (Indent.unindentCode (if e.nanobind then namesNanobind else namesPybind) true ++ ['\n']) ++
    others.flatMap (fun n => replaceInString (Indent.unindentCode (if e.nanobind then checkNanobind else checkPybind) true ++ ['\n'])
      [(kIndent, e.indent), (kOther, n), (kBuffer, buffer), (kFunction, e.pythonName)])
  else []

/-- `/repo/src/litgen/internal/adapt_function_params/_adapt_c_buffers.py:360-466` `process_templates`; `none` is an exception. -/
def fullCode (e : Env) : Option Str :=
  (templateBuffers e.params).getLast?.bind (fun buffer => (loopCode e buffer e.types.zipIdx).map (fun code =>
    replaceInString (Indent.unindentCode (if e.nanobind then introNanobind else introPybind) true) [(kBuffer, buffer)] ++ ['\n'] ++
    checks e buffer ++ code ++
    replaceInString (Indent.unindentCode outroRaw true) [(kIndent, e.indent), (kBuffer, buffer)]))

end Verif.Dispatch
