import Verif.Py.Str

/-! Model of the comment helpers of `/repo/src/codemanip/code_utils.py`: position of C++ and Python
end-of-line comments, tokens added before a comment, alignment of Python comments. -/

namespace Verif.Comment
open Verif.Py

/-- `/repo/src/codemanip/code_utils.py:115-116`, the update of `in_string`. -/
def cppToggle (inString : Bool) (lastChar : Option Char) (c : Char) : Bool :=
  if c = '"' ∧ ¬ lastChar = some '\\' then !inString else inString

/-- `/repo/src/codemanip/code_utils.py:114-120`, the loop of `line_cpp_comment_position`. The
arguments are the variables `in_string`, `last_char`, `i` and the rest of the line. -/
def cppScan : Bool → Option Char → Nat → Str → Option Nat
  | _, _, _, [] => none
  | inString, lastChar, i, c :: cs =>
    if c = '/' ∧ lastChar = some '/' ∧ cppToggle inString lastChar c = false then some (i - 1)
    else cppScan (cppToggle inString lastChar c) (some c) (i + 1) cs

/-- `/repo/src/codemanip/code_utils.py:111-122` `line_cpp_comment_position`. -/
def lineCppCommentPosition (line : Str) : Option Nat := cppScan false none 0 line

/-- `/repo/src/codemanip/code_utils.py:207-216`, the backward loop of
`last_code_position_before_cpp_comment`: the argument is `pos + 1`, `0` is the exit `pos < 0`. -/
def lastCodeLoop (line : Str) : Nat → Nat
  | 0 => 0
  | k + 1 =>
    match line[k]? with
    | some c => if isSpace c then lastCodeLoop line k else k + 1
    | none => lastCodeLoop line k

/-- `/repo/src/codemanip/code_utils.py:202-216` `last_code_position_before_cpp_comment`. -/
def lastCodePositionBeforeCppComment (line : Str) : Nat :=
  match lineCppCommentPosition line with
  | none => (rstrip line).length
  | some pos => lastCodeLoop line pos

/-- `/repo/src/codemanip/code_utils.py:223-226` `add_token_to_line`; the same three lines are at
237-239 in `add_item_before_cpp_comment`. -/
def addTokenToLine (token line : Str) : Str :=
  let pos := lastCodePositionBeforeCppComment line
  line.take pos ++ token ++ line.drop pos

/-- `/repo/src/codemanip/code_utils.py:219-230` `join_lines_with_token_before_cpp_comment`. -/
def joinLinesWithTokenBeforeCppComment (ls : List Str) (token : Str) : Str :=
  match ls.getLast? with
  | none => []
  | some last => unlines (ls.dropLast.map (addTokenToLine token) ++ [last])

/-- `/repo/src/codemanip/code_utils.py:233-242` `add_item_before_cpp_comment`. -/
def addItemBeforeCppComment (code item : Str) : Str :=
  if code.length = 0 then item
  else
    match (lines code).getLast? with
    | none => item   -- never: `split` returns at least one line
    | some last => unlines ((lines code).dropLast ++ [addTokenToLine item last])

/-- `/repo/src/codemanip/code_utils.py:138-140`, the three replacements of
`line_python_comment_position`. -/
def normalizeQuotes (line : Str) : Str :=
  replace (replace (replace line "\"\"\"".toList "__\"".toList) "'''".toList "__'".toList)
    ['\''] ['"']

/-- `/repo/src/codemanip/code_utils.py:145-146`, the update of `in_string`. -/
def pyToggle (inString : Bool) (c : Char) : Bool := if c = '"' then !inString else inString

/-- `/repo/src/codemanip/code_utils.py:142-155`, the loop of `line_python_comment_position`. The
arguments are `skip_if_comment_only_line`, `in_string`, `has_seen_non_space`, `i`, the rest. -/
def pyScan (skip : Bool) : Bool → Bool → Nat → Str → Option Nat
  | _, _, _, [] => none
  | inString, seen, i, c :: cs =>
    if c = '#' ∧ pyToggle inString c = false ∧ (skip = false ∨ seen = true) then some i
    else pyScan skip (pyToggle inString c) (seen || !isSpace c) (i + 1) cs

/-- `/repo/src/codemanip/code_utils.py:125-157` `line_python_comment_position`. -/
def linePythonCommentPosition (line : Str) (skip : Bool := false) : Option Nat :=
  pyScan skip false false 0 (normalizeQuotes line)

/-- `/repo/src/codemanip/code_utils.py:160-161` `line_python_comment_eol_position`. -/
def linePythonCommentEolPosition (line : Str) : Option Nat := linePythonCommentPosition line true

/-- `/repo/src/codemanip/code_utils.py:185-195`, body of the loop of
`align_python_comments_in_block`. -/
def alignLine (maxPosition : Nat) (line : Str) : Str :=
  match linePythonCommentEolPosition line with
  | some p => line.take p ++ spaces (maxPosition - p) ++ ['#'] ++ line.drop (p + 1)
  | none => line

/-- `/repo/src/codemanip/code_utils.py:176-199` `align_python_comments_in_block`. -/
def alignPythonCommentsInBlock (code : Str) : Str :=
  let positions := (lines code).filterMap linePythonCommentEolPosition
  match positions with
  | [] => code
  | p :: ps => unlines ((lines code).map (alignLine (ps.foldl max p)))

/-- `/repo/src/codemanip/code_utils.py:164-168` `align_python_comments_in_block_lines`. -/
def alignPythonCommentsInBlockLines (ls : List Str) : List Str :=
  lines (alignPythonCommentsInBlock (unlines ls))

end Verif.Comment
