import Verif.Indent.Model
import Verif.Where.Model
import Verif.Py.Int

/-! Model of the messages about elements of the code: `emit_warning`, `raise_exception` and `_format_message`
(`/repo/src/srcmlcpp/srcml_wrapper.py`), and which warnings are printed (`/repo/src/srcmlcpp/internal/srcmlcpp_exception_detailed.py`).

Simplifications: `flag_show_python_callstack` is false; under pytest the message is logged instead. `lower()` is the one of ASCII. -/

namespace Verif.Warn
open Verif.Py

/-- `/repo/src/srcmlcpp/srcmlcpp_options.py:84-90`: `flag_quiet`, `ignored_warnings` (by their names) and `ignored_warning_parts`. -/
structure Options where
  quiet : Bool
  ignored : List Str
  parts : List Str

/-- What is read of an element: its tag, its file, its position and its code with a caret (`str_code_context_with_caret(max_lines=2)`, see `Verif/Where`). -/
structure Elem where
  tag : Str
  filename : Option Str
  start : Where.Position
  code : Str

/-- `/repo/src/srcmlcpp/srcml_wrapper.py:299-309` `str_code_location` -/
def location (e : Elem) : Str :=
  let header := match e.filename with
    | none => "Position".toList
    | some f => f
  if e.start.line ≥ 0 then header ++ ":".toList ++ intStr e.start.line ++ ":".toList ++ intStr e.start.column else header

/-- `/repo/src/srcmlcpp/srcml_wrapper.py:238-246` `_show_element_info` -/
def elementInfo (e : Elem) : Str :=
  "\n        While parsing a \"".toList ++ e.tag ++ "\", corresponding to this C++ code:\n        ".toList ++ location e ++ "\n".toList ++
    Indent.indentCode e.code 12 ++ "\n        ".toList

/-- `/repo/src/srcmlcpp/srcml_wrapper.py:248-269` `_format_message` -/
def formatMessage (e : Elem) (additional : Str) (header : Str := "Warning".toList) : Str :=
  let message := if contains (additional.map Char.toLower) "while parsing".toList then [] else elementInfo e
  let message := if additional.length > 0 then Indent.unindentCode additional true ++ "\n".toList ++ Indent.unindentCode message true else message
  header ++ ": ".toList ++ message

/-- `/repo/src/srcmlcpp/internal/srcmlcpp_exception_detailed.py:39-53` `emit_warning_if_not_quiet`: what is printed. -/
def printed (o : Options) (message type : Str) : Option Str :=
  if o.quiet then none
  else if type ∈ o.ignored then none
  else if o.parts.any (fun p => contains message p) then none
  else some (replace message "Warning: ".toList ("Warning: ".toList ++ ("(".toList ++ type ++ ") ".toList)))

/-- `/repo/src/srcmlcpp/srcml_wrapper.py:217-223` `emit_warning` -/
def emit (o : Options) (e : Elem) (message type : Str) : Option Str := printed o (formatMessage e message) type

/-- `/repo/src/srcmlcpp/srcml_wrapper.py:210-215` `raise_exception`, with
`/repo/src/srcmlcpp/internal/srcmlcpp_exception_detailed.py:15-18`: the text of the exception. -/
def exceptionText (e : Elem) (message : Str) : Str := formatMessage e message

/-- `/repo/src/litgen/internal/adapted_types/adapted_block.py:165-166`: an exception about an element `e` is printed as a warning about the child `c`. -/
def reported (o : Options) (c e : Elem) (message type : Str) : Option Str := emit o c (exceptionText e message) type

end Verif.Warn
