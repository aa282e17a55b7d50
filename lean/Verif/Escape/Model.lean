import Verif.Py.Str

/-! Model of the formatting of comments into C string literals, `/repo/src/codemanip/code_utils.py`. -/

namespace Verif.Escape
open Verif.Py

/-- `/repo/src/codemanip/code_utils.py:398`, the characters before which a backslash is kept. -/
def keptEscapes : List Char := ['n', 't', 'o', 'x', '"', '\'']

/-- `/repo/src/codemanip/code_utils.py:395-407`: the loop over `overlapping_pairs(comment)` (27-34)
followed by the treatment of the last character. -/
def escapePairs : Str → Str
  | [] => []
  | [last] => if last = '\\' then ['\\', '\\'] else [last]
  | c1 :: c2 :: rest =>
    (if c1 = '\\' ∧ c2 ∉ keptEscapes then ['\\', '\\'] else [c1]) ++ escapePairs (c2 :: rest)

/-- `/repo/src/codemanip/code_utils.py:392-409` `escape_backslash_in_comments`. -/
def escapeBackslashInComments (comment : Str) : Str :=
  if comment.length ≤ 1 then comment else escapePairs comment

/-- `/repo/src/codemanip/code_utils.py:412-421` `format_cpp_comment_on_one_line`. -/
def formatCppCommentOnOneLine : Option Str → Str
  | none => []
  | some comment =>
    let isMultiline := contains comment ['\n']
    let comment := replace comment ['\n'] ['\\', 'n']
    let comment := replace comment ['"'] ['\\', '"']
    let comment := escapeBackslashInComments comment
    if isMultiline then comment else strip comment

/-- `/repo/src/codemanip/code_utils.py:272-273` `escape_new_lines`. -/
def escapeNewLines (code : Str) : Str := replace (replace code ['\n'] ['\\', 'n']) ['"'] ['\\', '"']

/-- `/repo/src/codemanip/code_utils.py:381-389` `format_python_comment`. -/
def formatPythonComment (comment : Str) (indentSize : Nat) : Str :=
  unlines ((lines comment).map (fun l => spaces indentSize ++ ['#', ' '] ++ l))

/-- `/repo/src/codemanip/code_utils.py:424-433` `format_cpp_comment_multiline`. -/
def formatCppCommentMultiline (comment : Str) (indentSize : Nat := 4) (indentStr : Str := []) : Str :=
  let ind := if indentStr.length = 0 then spaces indentSize else indentStr
  unlines ((lines comment).map (fun l => ind ++ ['/', '/', ' '] ++ l))

/-- `/repo/src/codemanip/code_utils.py:436-446` `cpp_comment_remove_comment_markers`. -/
def cppCommentRemoveCommentMarkers (comment : Str) : Str :=
  if startsWith comment ['/', '/'] then strip (comment.drop 2)
  else if startsWith comment ['/', '*'] then
    let result := strip (comment.drop 2)
    if endsWith result ['*', '/'] then result.take (result.length - 2) else result
  else comment

end Verif.Escape
