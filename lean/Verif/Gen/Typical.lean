import Verif.Markers.Model

/-! Model of the files proposed by the help messages of `/repo/src/litgen/litgen_generator.py`. -/

namespace Verif.Gen
open Verif.Py

/-- `/repo/src/litgen/litgen_generator.py:315-354` `_typical_pybind_file` for pybind11, by lines -/
def pybindLines : List Str := [
  "".toList,
  "#include <pybind11/pybind11.h>".toList,
  "#include <pybind11/stl.h>".toList,
  "#include <pybind11/functional.h>".toList,
  "#include <pybind11/numpy.h>".toList,
  "".toList,
  "#include \"mylib/mylib.h\"  // Change this include to the library you are binding".toList,
  "".toList,
  "namespace py = pybind11;".toList,
  "".toList,
  "// !!!!!!!!!!!!!!!!!!!!!!!!!!!!!!!!!!!  AUTOGENERATED CODE !!!!!!!!!!!!!!!!!!!!!!!!!!!!!!!!!!!".toList,
  "// <litgen_glue_code>  // Autogenerated code below! Do not edit!".toList,
  "//".toList,
  "//         Everything inside this block will be auto-generated. It will include some glue code:".toList,
  "//         - \"Publicist\" classes to expose protected methods".toList,
  "//         - \"Trampoline\" classes to make virtual method overridable from python".toList,
  "//         - \"Boxed Types\" classes to make it possible to modify immutable types when passed as a function parameter".toList,
  "//".toList,
  "// </litgen_glue_code> // Autogenerated code end".toList,
  "// !!!!!!!!!!!!!!!!!!!!!!!!!!!!!!!!!!!  AUTOGENERATED CODE END !!!!!!!!!!!!!!!!!!!!!!!!!!!!!!!".toList,
  "".toList,
  "".toList,
  "// You can add any code here".toList,
  "".toList,
  "".toList,
  "void py_init_module_MYLIB(py::module& m)      //  rename this function name!!!".toList,
  "{".toList,
  "    // You can add any code here".toList,
  "".toList,
  "".toList,
  "    // !!!!!!!!!!!!!!!!!!!!!!!!!!!!!!!!!!!  AUTOGENERATED CODE !!!!!!!!!!!!!!!!!!!!!!!!!!!!!!!!!!!".toList,
  "    // <litgen_pydef> // Autogenerated code below! Do not edit!".toList,
  "    //".toList,
  "    //         Everything inside this block will be auto-generated. It will include the C++ code that".toList,
  "    //         generates all the python bindings.".toList,
  "    //".toList,
  "    // </litgen_pydef> // Autogenerated code end".toList,
  "    // !!!!!!!!!!!!!!!!!!!!!!!!!!!!!!!!!!!  AUTOGENERATED CODE END !!!!!!!!!!!!!!!!!!!!!!!!!!!!!!!".toList,
  "}".toList,
  "        ".toList]

/-- `/repo/src/litgen/litgen_generator.py:356-402` `_typical_pybind_file` for nanobind, by lines -/
def nanobindLines : List Str := [
  "".toList,
  "#include <memory>".toList,
  "#include <array>".toList,
  "#include <vector>".toList,
  "#include <tuple>".toList,
  "#include <nanobind/nanobind.h>".toList,
  "#include <nanobind/stl/string.h>".toList,
  "#include <nanobind/stl/array.h>".toList,
  "#include <nanobind/trampoline.h>".toList,
  "#include <nanobind/ndarray.h>".toList,
  "".toList,
  "namespace nb = nanobind;".toList,
  "".toList,
  "#include \"mylib/mylib.h\"  // Change this include to the library you are binding".toList,
  "".toList,
  "namespace nb = nanobind;".toList,
  "".toList,
  "// !!!!!!!!!!!!!!!!!!!!!!!!!!!!!!!!!!!  AUTOGENERATED CODE !!!!!!!!!!!!!!!!!!!!!!!!!!!!!!!!!!!".toList,
  "// <litgen_glue_code>  // Autogenerated code below! Do not edit!".toList,
  "//".toList,
  "//         Everything inside this block will be auto-generated. It will include some glue code:".toList,
  "//         - \"Publicist\" classes to expose protected methods".toList,
  "//         - \"Trampoline\" classes to make virtual method overridable from python".toList,
  "//         - \"Boxed Types\" classes to make it possible to modify immutable types when passed as a function parameter".toList,
  "//".toList,
  "// </litgen_glue_code> // Autogenerated code end".toList,
  "// !!!!!!!!!!!!!!!!!!!!!!!!!!!!!!!!!!!  AUTOGENERATED CODE END !!!!!!!!!!!!!!!!!!!!!!!!!!!!!!!".toList,
  "".toList,
  "".toList,
  "// You can add any code here".toList,
  "".toList,
  "".toList,
  "void py_init_module_MYLIB(nb::module& m)      //  rename this function name!!!".toList,
  "{".toList,
  "    // You can add any code here".toList,
  "".toList,
  "".toList,
  "    // !!!!!!!!!!!!!!!!!!!!!!!!!!!!!!!!!!!  AUTOGENERATED CODE !!!!!!!!!!!!!!!!!!!!!!!!!!!!!!!!!!!".toList,
  "    // <litgen_pydef> // Autogenerated code below! Do not edit!".toList,
  "    //".toList,
  "    //         Everything inside this block will be auto-generated. It will include the C++ code that".toList,
  "    //         generates all the python bindings.".toList,
  "    //".toList,
  "    // </litgen_pydef> // Autogenerated code end".toList,
  "    // !!!!!!!!!!!!!!!!!!!!!!!!!!!!!!!!!!!  AUTOGENERATED CODE END !!!!!!!!!!!!!!!!!!!!!!!!!!!!!!!".toList,
  "}".toList,
  "        ".toList]

/-- `/repo/src/litgen/litgen_generator.py:407-419` `_typical_stub_file`, by lines -/
def stubLines : List Str := [
  "".toList,
  "# type: ignore".toList,
  "import sys".toList,
  "from typing import Literal, List, Any, Optional, Tuple, Dict".toList,
  "import numpy as np".toList,
  "import enum".toList,
  "import numpy".toList,
  "".toList,
  "# !!!!!!!!!!!!!!!!!!!!!!!!!!!!!!!!!!!  AUTOGENERATED CODE !!!!!!!!!!!!!!!!!!!!!!!!!!!!!!!!!!!".toList,
  "# <litgen_stub> // Autogenerated code below! Do not edit!".toList,
  "# !!!!!!!!!!!!!!!!!!!!!!!!!!!!!!!!!!!  AUTOGENERATED CODE END !!!!!!!!!!!!!!!!!!!!!!!!!!!!!!!".toList,
  "# </litgen_stub> // Autogenerated code end!".toList,
  "    ".toList]

/-- `/repo/src/litgen/litgen_generator.py:424-438` `_typical_glue_file`, by lines -/
def glueLines : List Str := [
  "".toList,
  "#include <string>".toList,
  "".toList,
  "// !!!!!!!!!!!!!!!!!!!!!!!!!!!!!!!!!!!  AUTOGENERATED CODE !!!!!!!!!!!!!!!!!!!!!!!!!!!!!!!!!!!".toList,
  "// <litgen_glue_code>  // Autogenerated code below! Do not edit!".toList,
  "//".toList,
  "//         Everything inside this block will be auto-generated. It will include some glue code:".toList,
  "//         - \"Publicist\" classes to expose protected methods".toList,
  "//         - \"Trampoline\" classes to make virtual method overridable from python".toList,
  "//         - \"Boxed Types\" classes to make it possible to modify immutable types when passed as a function parameter".toList,
  "//".toList,
  "// </litgen_glue_code> // Autogenerated code end".toList,
  "// !!!!!!!!!!!!!!!!!!!!!!!!!!!!!!!!!!!  AUTOGENERATED CODE END !!!!!!!!!!!!!!!!!!!!!!!!!!!!!!!".toList,
  "}".toList,
  "        ".toList]

/-- `/repo/src/litgen/litgen_generator.py:313-403` `_typical_pybind_file` -/
def typicalPybind (nanobind : Bool) : Str := unlines (if nanobind then nanobindLines else pybindLines)

/-- `/repo/src/litgen/litgen_generator.py:406-420` `_typical_stub_file` -/
def typicalStub : Str := unlines stubLines

/-- `/repo/src/litgen/litgen_generator.py:423-439` `_typical_glue_file` -/
def typicalGlue : Str := unlines glueLines

end Verif.Gen
