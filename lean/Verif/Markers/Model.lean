import Verif.Py.Str
import Verif.Indent.Model

/-! Model of `write_generated_code_between_markers` of `/repo/src/codemanip/code_utils.py`.

The file is a value: `none` if it does not exist, its text otherwise (`read_text_file` and
`write_text_file` use `newline=""`, so there is no translation of line ends). -/

namespace Verif.Markers
open Verif.Py

/-- `/repo/src/codemanip/code_utils.py:449-456` `spaces_or_tabs_at_line_start`. -/
def spacesOrTabsAtLineStart : Str → Str
  | [] => []
  | c :: cs => if c = ' ' ∨ c = '\t' then c :: spacesOrTabsAtLineStart cs else []

/-- The exceptions raised at `/repo/src/codemanip/code_utils.py:469, 482, 517`. -/
inductive Err where
  | fileNotFound
  | moreThanOneMarker
  | missingMarker
deriving DecidableEq, Repr

/-- The variables of the loop at `/repo/src/codemanip/code_utils.py:474-476`; `code_to_insert` is
also updated inside the loop (line 492). -/
structure State where
  output : Str
  inside : Bool
  replaced : Bool
  code : Str
deriving DecidableEq

/-- `/repo/src/codemanip/code_utils.py:465` -/
def markerIn (tok : Str) : Str := '<' :: tok ++ ['>']
/-- `/repo/src/codemanip/code_utils.py:466` -/
def markerOut (tok : Str) : Str := '<' :: '/' :: tok ++ ['>']

/-- `/repo/src/codemanip/code_utils.py:478-500`, first half of the body of the loop. -/
def stepOpen (mIn : Str) (preserve : Bool) (st : State) (line : Str) : Except Err State :=
  if contains line mIn then
    if st.inside then .error .moreThanOneMarker
    else
      let indentStr := spacesOrTabsAtLineStart line
      let code := if preserve then Indent.indentCode st.code (indentStr := some indentStr) else st.code
      .ok { output := st.output ++ line ++ ['\n'] ++ code, inside := true, replaced := true,
            code := code }
  else if st.inside then .ok st
  else .ok { st with output := st.output ++ line ++ ['\n'] }

/-- `/repo/src/codemanip/code_utils.py:501-504`, second half of the body of the loop. -/
def stepClose (mOut : Str) (st : State) (line : Str) : State :=
  if contains line mOut then
    { st with output := st.output ++ ['\n'] ++ line ++ ['\n'], inside := false }
  else st

/-- `/repo/src/codemanip/code_utils.py:477-504`, the loop. -/
def loop (mIn mOut : Str) (preserve : Bool) : State → List Str → Except Err State
  | st, [] => .ok st
  | st, line :: rest =>
    match stepOpen mIn preserve st line with
    | .error e => .error e
    | .ok st => loop mIn mOut preserve (stepClose mOut st line) rest

/-- `/repo/src/codemanip/code_utils.py:506` -/
def chop (s : Str) : Str := if s.getLast? = some '\n' then s.dropLast else s

/-- What a call leaves behind: the file, whether it was written, the exception raised. -/
structure Outcome where
  file : Option Str
  written : Bool
  error : Option Err
deriving DecidableEq

/-- `/repo/src/codemanip/code_utils.py:459-521` `write_generated_code_between_markers`, with
`write_text_file` (276-280) inlined: it compares with the content of the file again. -/
def writeGeneratedCodeBetweenMarkers (file : Option Str) (tok code : Str) (preserve : Bool := true) :
    Outcome :=
  match file with
  | none => ⟨none, false, some .fileNotFound⟩
  | some input =>
    match loop (markerIn tok) (markerOut tok) preserve ⟨[], false, false, code⟩ (lines input) with
    | .error e => ⟨some input, false, some e⟩
    | .ok st =>
      let output := chop st.output
      if st.replaced then
        if output ≠ input then ⟨some output, true, none⟩ else ⟨some input, false, none⟩
      else ⟨some input, false, some .missingMarker⟩

end Verif.Markers
