import Verif.Re.Model
import Verif.Type.Model

/-! Model of the searches with regular expressions: `does_match_regex` with its flag `re.MULTILINE` (`/repo/src/codemanip/code_utils.py:664-815`), and how
litgen recognises the type of a buffer and the name of its size with them (`/repo/src/litgen/internal/adapt_function_params/_adapt_c_buffers.py:16-52`,
`/repo/src/litgen/options.py:288-319`). The cache of compiled expressions is not modelled (the same text gives the same expression); rules that are
functions are not modelled here. -/

namespace Verif.Find
open Verif.Py Verif.Re

/-- `^` with `re.MULTILINE`: the character before, if any, is a line feed. Written as the negative lookbehind of all the other characters. -/
def lineStart : Str := "(?<![".toList ++ [Char.ofNat 0, '-', '\t', Char.ofNat 11, '-', Char.ofNat 0x10FFFF] ++ "])".toList

/-- `$` with `re.MULTILINE`: the next character, if any, is a line feed. -/
def lineEnd : Str := "(?:(?=\n)|$)".toList

/-- The expression without the flag that has the meaning of this one with `re.MULTILINE`. `inSet`: between `[` and `]`. -/
def multiline : Bool → Str → Str
  | _, [] => []
  | inSet, '\\' :: c :: s => '\\' :: c :: multiline inSet s
  | true, ']' :: s => ']' :: multiline false s
  | true, c :: s => c :: multiline true s
  | false, '[' :: s => '[' :: multiline true s
  | false, '^' :: s => lineStart ++ multiline false s
  | false, '$' :: s => lineEnd ++ multiline false s
  | false, c :: s => c :: multiline false s

/-- `/repo/src/codemanip/code_utils.py:723-728` `_compile_regex`; `none` for what is not modelled and for what `re` refuses. -/
def compileRegex (pattern : Str) : Option Re :=
  (compile (multiline false (if startsWith pattern ['|'] then pattern.tail else pattern))).map Prod.fst

/-- `pattern.search`: is there a match anywhere? -/
def search (u : Char → Bool) (r : Re) : Option Char → Str → Bool
  | prev, [] => !(run u r ⟨prev, [], []⟩).isEmpty
  | prev, c :: s => !(run u r ⟨prev, c :: s, []⟩).isEmpty || search u r (some c) s

/-- `/repo/src/codemanip/code_utils.py:731-750` `does_match_regex` -/
def doesMatch (u : Char → Bool) (regex word : Str) : Option Bool :=
  if regex.length = 0 then some false else (compileRegex regex).map (fun r => search u r none word)

/-- `/repo/src/codemanip/code_utils.py:803-806` `split_string_by_pipe_char` -/
def splitPipe (s : Str) : List Str := (splitOn '|' s).filter (fun x => x.length > 0)

/-- `/repo/src/codemanip/code_utils.py:809-810` `join_string_by_pipe_char` -/
def joinPipe (l : List Str) : Str := join ['|'] l

/-- `/repo/src/codemanip/code_utils.py:791-800` `make_regex_var_name_contains_word` -/
def regexVarName (word : Str) : Str :=
  joinPipe [['^'] ++ word ++ ['$'], ['^'] ++ word ++ ['_'], ['_'] ++ word ++ ['$'], ['^'] ++ word ++ "[A-Z][a-z_]".toList, word ++ "[0-9]$".toList]

/-- `/repo/src/codemanip/code_utils.py:675-678` `contains_word_boundary_left_only` -/
def containsWordLeft (u : Char → Bool) (text word : Str) : Option Bool :=
  doesMatch u ("\\b".toList ++ replace word ['*'] "\\*".toList) text

/-- Python's `or` on results. -/
def orElse (a b : Option Bool) : Option Bool := a.bind (fun x => if x then some true else b)

/-- `/repo/src/codemanip/code_utils.py:710-720` `contains_pointer_type` -/
def containsPointerType (u : Char → Bool) (fullType typeToSearch : Str) : Option Bool :=
  let t := if endsWith typeToSearch ['*'] then typeToSearch.dropLast else typeToSearch
  orElse (containsWordLeft u fullType (t ++ ['*'])) (containsWordLeft u fullType (t ++ " *".toList))

/-- `/repo/src/litgen/internal/adapt_function_params/_adapt_c_buffers.py:16-27`: `_possible_buffer_pointer_types` and
`_possible_buffer_template_pointer_types`, for the list of types of the option. -/
def pointerTypes (types : Str) : List Str :=
  (splitPipe types).map (· ++ ['*']) ++ (splitPipe types).map (· ++ " *".toList)

/-- The loop of `/repo/src/litgen/internal/adapt_function_params/_adapt_c_buffers.py:30-43`: `_looks_like_param_buffer_standard` and
`_looks_like_param_template_buffer`, for the text of the type of the parameter (`full_type`). -/
def looksLikeBuffer (u : Char → Bool) (types fullType : Str) : Option Bool :=
  (pointerTypes types).foldr (fun t r => orElse (containsPointerType u fullType t) r) (some false)

/-- `/repo/src/litgen/options.py:288-303` `fn_params_buffer_types` -/
def bufferTypes : Str :=
  joinPipe ["uint8_t".toList, "int8_t".toList, "uint16_t".toList, "int16_t".toList, "uint32_t".toList, "int32_t".toList, "np_uint_l".toList,
    "np_int_l".toList, "float".toList, "double".toList, "long double".toList, "long long".toList]

/-- `/repo/src/litgen/options.py:307` `fn_params_buffer_template_types` -/
def templateTypes : Str := joinPipe ["T".toList, "NumericType".toList]

/-- The words of `/repo/src/litgen/options.py:313-317`. -/
def sizeWords : List Str := ["nb".toList, "size".toList, "count".toList, "total".toList, "n".toList]

/-- `/repo/src/litgen/options.py:311-319` `fn_params_buffer_size_names__regex` -/
def sizeRegex : Str := joinPipe (sizeWords.map regexVarName)

/-- `/repo/src/litgen/internal/adapt_function_params/_adapt_c_buffers.py:50-52` `_name_looks_like_buffer_size`, with the standard options. -/
def looksLikeSize (u : Char → Bool) (name : Str) : Option Bool := doesMatch u sizeRegex name

end Verif.Find
