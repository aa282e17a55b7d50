import Verif.Lines.Model
import Verif.Indent.Model

/-! Model of the parts of the generated code that are not bindings: the original C++ code shown as comments in the stub, the frame around
the specializations of a template, and the texts made from the lines. -/

namespace Verif.Orig
open Verif.Py

/-- `/repo/src/litgen/internal/adapted_types/adapted_element.py:158`: the mark after the first line. -/
def mark : Str := "    /* original C++ signature */".toList

/-- `/repo/src/litgen/internal/adapted_types/adapted_element.py:148-159` `_elm_stub_original_code_lines_info`; `shown` is
`options.original_signature_flag_show`, `code` is `str_code_verbatim()`. -/
def originalLines (shown : Bool) (code : Str) : List Str :=
  if !shown then []
  else
    let code := Lines.stripEmptyLines code
    if code.length = 0 then []
    else
      match (lines code).map (fun s => ['#', ' '] ++ s) with
      | [] => []
      | first :: others => (first ++ mark) :: others

/-- `/repo/src/litgen/internal/cpp_to_python.py:932`: the rule of the frame, `#`, two spaces and 72 dashes. -/
def rule : Str := ['#', ' ', ' '] ++ List.replicate 72 '-'

/-- `/repo/src/litgen/internal/cpp_to_python.py:930-936`: the lines before the code. -/
def intro (message : Str) : List Str :=
  lines (Indent.unindentCode
    (['\n'] ++ spaces 4 ++ rule ++ ['\n'] ++ spaces 4 ++ ['#'] ++ spaces 6 ++ ['<'] ++ message ++ ['>', '\n'] ++ spaces 4) true)

/-- `/repo/src/litgen/internal/cpp_to_python.py:938-944`: the lines after the code. -/
def outro (message : Str) : List Str :=
  lines (Indent.unindentCode
    (['\n'] ++ spaces 4 ++ ['#'] ++ spaces 6 ++ ['<', '/'] ++ message ++ ['>', '\n'] ++ spaces 4 ++ rule ++ ['\n'] ++ spaces 4) true)

/-- `/repo/src/litgen/internal/cpp_to_python.py:929-947` `surround_python_code_lines`. -/
def surround (code : List Str) (message : Str) : List Str := intro message ++ code ++ outro message

/-- `/repo/src/litgen/internal/adapted_types/adapted_function.py:1038-1045` and
`/repo/src/litgen/internal/adapted_types/adapted_class.py:508-512`: the loop over the instantiations; `n` empty lines are put before the lines
of an instantiation when there are already lines. -/
def gather (n : Nat) : List Str → List (List Str) → List Str
  | r, [] => r
  | r, b :: bs => gather n ((if r.length > 0 then r ++ List.replicate n [] else r) ++ b) bs

/-- `/repo/src/litgen/internal/adapted_types/adapted_function.py:1033-1050`: the stub of a template function, given the stubs of its
instantiations; `decorate` is `options.fn_template_decorate_in_stub`. -/
def templateFunctionStub (isMethod decorate : Bool) (functionName : Str) (instantiations : List (List Str)) : List Str :=
  if instantiations.length = 0 then []
  else
    let r := gather (if isMethod then 1 else 2) [] instantiations
    if decorate then surround r ("template specializations for function ".toList ++ functionName) else r

/-- `/repo/src/litgen/internal/adapted_types/adapted_class.py:505-521`: the stub of a template class, given the stubs of its instantiations
and the synonyms; `decorate` is `options.class_template_decorate_in_stub`. -/
def templateClassStub (decorate : Bool) (className : Str) (instantiations : List (List Str)) (synonyms : List Str) : List Str :=
  if instantiations.length = 0 then []
  else
    let r := gather 2 [] instantiations ++ synonyms.flatMap (fun s => [[], s, []])
    if decorate then surround r ("template specializations for class ".toList ++ className) else r

/-- `/repo/src/litgen/internal/adapted_types/adapted_element.py:100-105` `str_stub`, on the lines of the stub. -/
def strStub (stubLines : List Str) : Str :=
  if stubLines.length = 0 then [] else unlines stubLines

/-- `/repo/src/litgen/internal/adapted_types/adapted_element.py:107-112` `str_pydef`, on the lines of the bindings. -/
def strPydef (pydefLines : List Str) : Str :=
  if pydefLines.length = 0 then [] else unlines pydefLines ++ ['\n']

end Verif.Orig
