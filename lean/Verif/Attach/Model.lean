import Verif.Py.Str

/-! Model of `/repo/src/srcmlcpp/internal/srcml_comments.py`. An XML element is represented by its tag,
its text and the lines of its start and end positions (`-1` when srcML gives none, as
`SrcmlWrapper.start`, `SrcmlWrapper.end`, `/repo/src/srcmlcpp/srcml_wrapper.py:152-160`). -/

namespace Verif.Attach
open Verif.Py

/-- `/repo/src/srcmlcpp/internal/srcml_comments.py:21` `COMMENT_NEW_LINE_TOKEN` -/
def newLineToken : Str := "_SRCML_LINEFEED_".toList
/-- `/repo/src/srcmlcpp/internal/srcml_comments.py:22` `EMPTY_LINE_COMMENT_CONTENT` -/
def emptyLineContent : Str := "_SRCML_EMPTY_LINE_".toList
/-- `/repo/src/srcmlcpp/internal/srcml_comments.py:23` `EMPTY_LINE_COMMENT` -/
def emptyLineComment : Str := "// ".toList ++ emptyLineContent

/-- A child of the element, see above; `id` stands for the rest of its XML. -/
structure Child where
  id : Nat
  tag : Str
  text : Option Str
  start : Int
  stop : Int
deriving DecidableEq

/-- `child.tag() == "comment"` -/
def Child.isComment (c : Child) : Bool := c.tag == "comment".toList

/-- `code_utils.str_none_empty(child.text())` -/
def Child.textD (c : Child) : Str := c.text.getD []

/-- `/repo/src/srcmlcpp/internal/srcml_comments.py:115-119` `mark_empty_lines`. -/
def markEmptyLines (code : Str) : Str :=
  unlines ((lines code).map (fun line => if (strip line).length = 0 then emptyLineComment else line))

/-- `/repo/src/srcmlcpp/internal/srcml_comments.py:187-189` -/
def isEmptyLineMark (a b : Option Str) : Bool :=
  match a, b with
  | some a, some b => contains a emptyLineContent || contains b emptyLineContent
  | _, _ => false

/-- `/repo/src/srcmlcpp/internal/srcml_comments.py:173-181` -/
def isEolOf (previousPrevious : Option Child) (previous : Child) : Bool :=
  match previousPrevious with
  | none => false
  | some pp => decide (pp.stop ≥ 0) && decide (pp.stop = previous.stop) && !pp.isComment

/-- `/repo/src/srcmlcpp/internal/srcml_comments.py:156-189`, the value of `shall_concat_comment`. -/
def shallConcat (previousPrevious previous : Option Child) (child : Child) : Bool :=
  match previous with
  | none => false
  | some p =>
    decide (child.start ≥ 0) && decide (p.stop ≥ 0) &&
    p.isComment && child.isComment && decide (child.start = p.stop + 1) &&
    !isEolOf previousPrevious p && !isEmptyLineMark child.text p.text

/-- `/repo/src/srcmlcpp/internal/srcml_comments.py:148-151` -/
def rawComment (text : Str) : Str := if startsWith text ['/', '/'] then text.drop 2 else text

/-- `/repo/src/srcmlcpp/internal/srcml_comments.py:144-154` `concat_comment`; `none` is an
`AssertionError`. -/
def concatComment (previous child : Child) : Option Child :=
  match previous.text, child.text with
  | some p, some t => some { previous with text := some (p ++ newLineToken ++ rawComment t), stop := child.stop }
  | _, _ => none

/-- `/repo/src/srcmlcpp/internal/srcml_comments.py:122-201` `_group_consecutive_comments`: the loop.
`done` is the list of the children added so far, last one first: its first two elements are
`previous_child` and `previous_previous_child`. -/
def groupLoop : List Child → List Child → Option (List Child)
  | done, [] => some done.reverse
  | done, child :: rest =>
    if shallConcat done[1]? done[0]? child then
      match done with
      | p :: ds => (concatComment p child).bind (fun p' => groupLoop (p' :: ds) rest)
      | [] => none
    else groupLoop (child :: done) rest

def groupConsecutiveComments (children : List Child) : Option (List Child) := groupLoop [] children

/-- `/repo/src/srcmlcpp/internal/srcml_comments.py:211-223`, the test on an element and the one before. -/
def eolPair (previous element : Child) : Bool :=
  element.isComment && !previous.isComment && !contains element.textD emptyLineContent &&
  decide (element.start = previous.stop)

/-- `/repo/src/srcmlcpp/internal/srcml_comments.py:204-223` `_is_comment_end_of_line` (for a natural
`idx`). -/
def isCommentEndOfLine (children : List Child) (idx : Nat) : Bool :=
  match idx with
  | 0 => false
  | k + 1 =>
    match children[k]?, children[k + 1]? with
    | some previous, some element => eolPair previous element
    | _, _ => false

/-- `/repo/src/srcmlcpp/internal/srcml_comments.py:237-260` `is_group_comment`. -/
def isGroupComment (n0 n1 : Child) (n2 : Option Child) : Bool :=
  match n2 with
  | none => false
  | some n2 =>
    n0.isComment && n1.tag == n2.tag && decide (n0.stop + 1 = n1.start) && decide (n1.stop + 1 = n2.start)

/-- `/repo/src/srcmlcpp/internal/srcml_comments.py:284-306`: whether the element after the next one is an
ordinary comment at the end of the line of the next one. -/
def nextHasEol (next : Child) (nextNext : Option Child) : Bool :=
  match nextNext with
  | none => false
  | some nn =>
    nn.isComment && decide (nn.start = next.stop) && !contains nn.textD "rv_policy::".toList &&
    !contains nn.textD "return_value_policy::".toList

/-- `/repo/src/srcmlcpp/internal/srcml_comments.py:262-307` -/
def onPreviousLine (element next : Child) (nextNext : Option Child) : Bool :=
  if isGroupComment element next nextNext then false
  else if element.isComment && !next.isComment then
    if element.textD = [' '] ++ emptyLineContent then false
    else if element.stop + 1 = next.start then !nextHasEol next nextNext
    else false
  else false

/-- `/repo/src/srcmlcpp/internal/srcml_comments.py:226-307` `_is_comment_on_previous_line` (for a natural
`idx`). -/
def isCommentOnPreviousLine (children : List Child) (idx : Nat) : Bool :=
  match children[idx]?, children[idx + 1]? with
  | some element, some next =>
    if isCommentEndOfLine children idx then false
    else onPreviousLine element next children[idx + 2]?
  | _, _ => false

/-- `/repo/src/srcmlcpp/internal/srcml_comments.py:318-321` -/
def removeSlashes (line : Str) : Str := if startsWith (lstrip line) ['/', '/'] then line.drop 2 else line

/-- `/repo/src/srcmlcpp/internal/srcml_comments.py:310-322` `_remove_comment_tokens`. -/
def removeCommentTokens (comment : Str) : Str :=
  let comment := replace comment newLineToken ['\n']
  if startsWith comment ['/', '*'] && endsWith comment ['*', '/'] then
    (comment.take (comment.length - 2)).drop 2
  else unlines ((lines comment).map removeSlashes)

/-- `/repo/src/srcmlcpp/internal/srcml_comments.py:352-360` `remove_comment_tokens`. -/
def cleanChild (c : Child) : Child :=
  if c.isComment then { c with text := c.text.map removeCommentTokens } else c

/-- An element with its comments (`CppElementAndComment`, `CppElementComments`; the flag
`is_c_style_comment` is left out). -/
structure Out where
  element : Child
  onPreviousLines : Str
  endOfLine : Str
deriving DecidableEq

/-- `/repo/src/srcmlcpp/internal/srcml_comments.py:390-394` -/
def suppressMarks (s : Str) : Str :=
  if '\n' ∈ s then replace s emptyLineComment [] else s

/-- The text of the child at an index. -/
def textAt (children : List Child) (i : Nat) : Str :=
  match children[i]? with
  | some c => c.textD
  | none => []

/-- `/repo/src/srcmlcpp/internal/srcml_comments.py:369-376`: the comment on the lines before the child
`i`. -/
def topOf (children : List Child) (i : Nat) : Str :=
  match i with
  | 0 => []
  | k + 1 => if isCommentOnPreviousLine children k then textAt children k else []

/-- `/repo/src/srcmlcpp/internal/srcml_comments.py:381-383`: the comment at the end of the line of the
child `i`. -/
def eolOf (children : List Child) (i : Nat) : Str :=
  if isCommentEndOfLine children (i + 1) then textAt children (i + 1) else []

/-- `/repo/src/srcmlcpp/internal/srcml_comments.py:364-396`, the body of the loop for index `i`. -/
def attachOne (children : List Child) (i : Nat) (element : Child) : Option Out :=
  if isCommentOnPreviousLine children i then none
  else if isCommentEndOfLine children i then none
  else some ⟨element, suppressMarks (topOf children i), eolOf children i⟩

/-- `/repo/src/srcmlcpp/internal/srcml_comments.py:364-398`. -/
def attach (children : List Child) : List Out :=
  children.zipIdx.filterMap (fun p => attachOne children p.2 p.1)

/-- `/repo/src/srcmlcpp/internal/srcml_comments.py:341-398` `get_children_with_comments` (the filtering
of preprocessor regions, lines 342-345, is modelled in `Verif/Prep`). -/
def getChildrenWithComments (children : List Child) : Option (List Out) :=
  (groupConsecutiveComments children).map (fun g => attach (g.map cleanChild))

end Verif.Attach
