import Verif.Py.Str
import Verif.Lines.Model

/-! Model of the indentation helpers of `/repo/src/codemanip/code_utils.py`. -/

namespace Verif.Indent
open Verif.Py

/-- `/repo/src/codemanip/code_utils.py:558-565` `count_spaces_at_start_of_line`. -/
def countSpacesAtStartOfLine : Str → Nat
  | [] => 0
  | c :: cs => if c = ' ' then countSpacesAtStartOfLine cs + 1 else 0

/-- `/repo/src/codemanip/code_utils.py:570-574`, the loop of `compute_code_indent_size`. -/
def indentSizeOfLines : List Str → Nat
  | [] => 0
  | l :: ls =>
    if (replace l [' '] []).length = 0 then indentSizeOfLines ls
    else countSpacesAtStartOfLine l

/-- `/repo/src/codemanip/code_utils.py:568-574` `compute_code_indent_size`. -/
def computeCodeIndentSize (code : Str) : Nat := indentSizeOfLines (lines code)

/-- `/repo/src/codemanip/code_utils.py:577-581` `remove_trailing_spaces`: the `while` loop removes the
last character as long as it is a space (here on the reversed line). -/
def removeTrailingSpaces (l : Str) : Str := (l.reverse.dropWhile (· == ' ')).reverse

/-- `/repo/src/codemanip/code_utils.py:291-296`, body of the loop of `unindent_code`. -/
def unindentLine (indentSize : Nat) (l : Str) : Str :=
  removeTrailingSpaces (if startsWith l (spaces indentSize) then l.drop indentSize else l)

/-- `/repo/src/codemanip/code_utils.py:283-303` `unindent_code`. -/
def unindentCode (code : Str) (stripEmpty : Bool := false) : Str :=
  let r := unlines ((lines code).map (unindentLine (computeCodeIndentSize code)))
  if stripEmpty then Lines.stripEmptyLines r else r

/-- `/repo/src/codemanip/code_utils.py:355-362` `indent_line` (local to `indent_code`). -/
def indentLine (indentStr : Str) (rstripFlag : Bool) (l : Str) : Str :=
  if l.length = 0 then []
  else if rstripFlag then indentStr ++ rstrip l else indentStr ++ l

/-- `/repo/src/codemanip/code_utils.py:349-365`, `indent_code` when `skip_first_line` is false. -/
def indentAll (code : Str) (indentSize : Nat) (indentStr : Option Str) (rstripFlag : Bool) : Str :=
  let v := match indentStr with
    | none => spaces indentSize
    | some s => s
  unlines ((lines code).map (indentLine v rstripFlag))

/-- `/repo/src/codemanip/code_utils.py:331-365` `indent_code`. -/
def indentCode (code : Str) (indentSize : Nat := 1) (skipFirst : Bool := false)
    (indentStr : Option Str := none) (rstripFlag : Bool := true) : Str :=
  if skipFirst then
    match lines code with
    | [] => code
    | [_] => code
    | first :: rest =>
      (if rstripFlag then rstrip first else first) ++ ['\n'] ++
        indentAll (unlines rest) indentSize indentStr rstripFlag
  else indentAll code indentSize indentStr rstripFlag

/-- `/repo/src/codemanip/code_utils.py:306-315` `reindent_code`. Note the default `indent_str=""`. -/
def reindentCode (code : Str) (indentSize : Nat := 4) (skipFirst : Bool := false)
    (indentStr : Str := []) : Str :=
  indentCode (unindentCode code) indentSize skipFirst (some indentStr)

/-- `/repo/src/codemanip/code_utils.py:318-328` `indent_code_lines` (its `rstrip` argument is ignored
by the Python code). -/
def indentCodeLines (ls : List Str) (indentSize : Nat := 1) (skipFirst : Bool := false)
    (indentStr : Option Str := none) : List Str :=
  lines (indentCode (unlines ls) indentSize skipFirst indentStr)

/-- `/repo/src/codemanip/code_utils.py:368-378` `indent_code_force`. -/
def indentCodeForce (code : Str) (indentSize : Nat := 1) (indentStr : Str := []) : Str :=
  let v := if indentStr.length = 0 then spaces indentSize else indentStr
  unlines ((lines code).map (fun s => v ++ strip s))

end Verif.Indent
