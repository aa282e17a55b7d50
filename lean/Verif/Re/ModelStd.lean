import Verif.Re.Model

/-! Model of the standard replacements, `/repo/src/litgen/internal/cpp_to_python.py:739-883`, with the regular expressions as they are written. -/

namespace Verif.Re
open Verif.Py

/-- `/repo/src/litgen/internal/cpp_to_python.py:739-803` `standard_type_replacements` -/
def typeLines : List Str :=
  ["".toList,
   r#"    \bunsigned \s*int\b -> int"#.toList,
   r#"    \bunsigned \s*short\b -> int"#.toList,
   r#"    \bunsigned \s*long long\b -> int"#.toList,
   r#"    \bunsigned \s*long\b -> int"#.toList,
   "".toList,
   r#"    \blong \s*long\b -> int"#.toList,
   r#"    \blong \s*double\b -> float"#.toList,
   "".toList,
   r#"    \bconst \s*char*\b -> str"#.toList,
   r#"    \bconst \s*char *\b -> str"#.toList,
   "".toList,
   r#"    \buint8_t\b -> int"#.toList,
   r#"    \bint8_t\b -> int"#.toList,
   r#"    \buint16_t\b -> int"#.toList,
   r#"    \bint16_t\b -> int"#.toList,
   r#"    \buint32_t\b -> int"#.toList,
   r#"    \bint32_t\b -> int"#.toList,
   r#"    \buint64_t\b -> int"#.toList,
   r#"    \bint64_t\b -> int"#.toList,
   r#"    \blong\b -> int"#.toList,
   r#"    \bshort\b -> int"#.toList,
   "".toList,
   r#"    \bdouble\b -> float"#.toList,
   r#"    \bfloat\b -> float"#.toList,
   "".toList,
   r#"    \bsize_t\b -> int"#.toList,
   r#"    \bstd::function<(.*)\((.*)\)> -> Callable[[\2], \1]"#.toList,
   r#"    \bstd::string_view\b -> str"#.toList,
   r#"    \bstd::string\(\) -> """#.toList,
   r#"    \bstd::string\b -> str"#.toList,
   r#"    \bstd::unique_ptr<(.*?)> -> \1"#.toList,
   r#"    \bstd::shared_ptr<(.*?)> -> \1"#.toList,
   r#"    \bstd::vector\s*<\s*(.*?)\s*> -> List[\1]"#.toList,
   r#"    \bstd::array\s*<\s*(.*?)\s*,\s*(.*?)\s*> -> List[\1]"#.toList,
   r#"    \bstd::tuple<(.*?)> -> Tuple[\1]"#.toList,
   r#"    \bstd::pair<(.*?)> -> Tuple[\1]"#.toList,
   r#"    \bstd::variant<(.*?)> -> Union[\1]"#.toList,
   r#"    \bstd::optional<(.*?)> -> Optional[\1]"#.toList,
   r#"    \bstd::map<\s*(.*?)\s*,\s*(.*?)\s*> -> Dict[\1, \2]"#.toList,
   "".toList,
   r#"    \bvoid\s*\* -> Any"#.toList,
   r#"    \bvoid\b -> None"#.toList,
   "".toList,
   r#"    \bpy::array\b -> np.ndarray"#.toList,
   r#"    \bpy::ndarray<(.*?)> -> np.ndarray"#.toList,
   r#"    \bnb::array\b -> np.ndarray"#.toList,
   r#"    \bnb::ndarray<(.*?)> -> np.ndarray"#.toList,
   "".toList,
   r#"    \bconst\b -> REMOVE"#.toList,
   r#"    \bmutable\b -> REMOVE"#.toList,
   "    & -> REMOVE".toList,
   r#"    \* -> REMOVE"#.toList,
   "    ".toList]

/-- The text that has these lines. -/
def typeText : Str := unlines typeLines

/-- `/repo/src/litgen/internal/cpp_to_python.py:809-835` `standard_value_replacements` -/
def valueLines : List Str :=
  ["".toList,
   r#"    \btrue\b -> True"#.toList,
   r#"    \bfalse\b -> False"#.toList,
   r#"    \bvoid\s*\* -> Any"#.toList,
   r#"    \bvoid\b -> None"#.toList,
   r#"    \bNULL\b -> None"#.toList,
   r#"    \bnullptr\b -> None"#.toList,
   r#"    \bstd::nullopt\b -> None"#.toList,
   r#"    \bstd.nullopt\b -> None"#.toList,
   "".toList,
   r#"    \bstd::string\(\) -> """#.toList,
   r#"    \bstd.string\(\) -> """#.toList,
   "".toList,
   r#"    \bFLT_MIN\b -> sys.float_info.min"#.toList,
   r#"    \bFLT_MAX\b -> sys.float_info.max"#.toList,
   r#"    \bDBL_MIN\b -> sys.float_info.min"#.toList,
   r#"    \bDBL_MAX\b -> sys.float_info.max"#.toList,
   r#"    \bLDBL_MIN\b -> sys.float_info.min"#.toList,
   r#"    \bLDBL_MAX\b -> sys.float_info.max"#.toList,
   "".toList,
   r#"    ([0-9])'([0-9]) -> \1_\2"#.toList,
   r#"    (?<![a-zA-Z0-9])([+-]?[0-9]+(?:\.[0-9]*)?(?:[eE][+-]?[0-9]+)?)([fFdD])(?=\W|$) -> \1"#.toList,
   "    :: -> .".toList,
   "    ".toList]

/-- The text that has these lines. -/
def valueText : Str := unlines valueLines

/-- `/repo/src/litgen/internal/cpp_to_python.py:843-861` `standard_comment_replacements` -/
def commentLines : List Str :=
  ["".toList,
   "".toList,
   r#"    \btrue\b -> True"#.toList,
   r#"    \bfalse\b -> False"#.toList,
   "".toList,
   r#"    \bvoid\b -> None"#.toList,
   r#"    \bNULL\b -> None"#.toList,
   r#"    \bnullptr\b -> None"#.toList,
   "".toList,
   r#"    (?<![a-zA-Z0-9])([+-]?[0-9]+(?:\.[0-9]*)?(?:[eE][+-]?[0-9]+)?)([fd])(?=\W|$) -> \1"#.toList,
   "    ".toList]

/-- The text that has these lines. -/
def commentText : Str := unlines commentLines

/-- `/repo/src/litgen/internal/cpp_to_python.py:871-883` `opencv_replacements` -/
def opencvLines : List Str :=
  ["".toList,
   r#"    \bcv::Size\(\) -> (0, 0)"#.toList,
   r#"    \bcv::Point\(-1, -1\) -> (-1, -1)"#.toList,
   r#"    \bcv::Point2d\(-1., -1.\) -> (-1., -1.)"#.toList,
   r#"    \bcv::Size\b -> Size"#.toList,
   r#"    \bcv::Matx33d::eye\(\) -> np.eye(3)"#.toList,
   r#"    \bcv::Matx33d\b -> Matx33d"#.toList,
   r#"    \bcv::Mat\b -> np.ndarray"#.toList,
   r#"    \bcv::Point\b -> Point"#.toList,
   r#"    \bcv::Point2d\b -> Point2d"#.toList,
   "    ".toList]

/-- The text that has these lines. -/
def opencvText : Str := unlines opencvLines

/-- `RegexReplacementList.from_string`, with the expressions read. -/
def rules (text : Str) : Option (List (Re × List Tok)) :=
  (Repl.fromString text).bind fun rs => rs.mapM fun r => rule r.what r.byWhat

end Verif.Re
